import Verif.Props.RefValues
/-!
# C67 — Documents with declarations, in the renderer
-/
namespace Verif
namespace C67
open Referenced
open Rend hiding Item bind_ok
open Walk (Any)
open Prose (char)
open C60 (inl elText Shows shows_all trim_flat renderString_flat place_none get_default)

/-- What becomes of an item when the substitutions are applied. -/
def Content (s : State) : Item → Any → Prop
  | .para l ls, a => ∃ es, a = .paragraph [] es ∧ Shown es (shown s (body (l :: ls)))
  | .blank _, a => a = .leaf 0
  | .declare n _ v, a => a = .declare n (.text (shown s v))
  | .reset n _ _, a => a = .reset n

/-- What becomes of all items, one after the other. -/
inductive Contents : State → List Item → List Any → Prop
  | nil {s : State} : Contents s [] []
  | cons {s : State} {x : Item} {xs : List Item} {a : Any} {as : List Any} : Content s x a → Contents (x.next s) xs as → Contents s (x :: xs) (a :: as)

/-- The elements of a document, as the renderer receives them. -/
def toEl : Any → El
  | .paragraph _ es => .paragraph [] (es.map inl)
  | .leaf _ => .blankLine
  | .declare n (.text v) => .attrDecl n (.str v)
  | .reset n => .attrReset n
  | _ => .other

/-- Blank lines are dropped before rendering. -/
def notBlank : Any → Bool
  | .leaf _ => false
  | _ => true

section
variable {L : Lib} {c : Rend.Ctx} {u : Bool}

theorem shown_flat (u : Bool) {es : List Any} : (∀ e ∈ es, Kind e) → (es.map inl).flatMap (elText u) = (es.flatMap C58.textOf).flatMap (char u) := by
  induction es with
  | nil => intro _; rfl
  | cons e es ih =>
    intro h
    have ih := ih (fun x hx => h x (List.mem_cons_of_mem _ hx))
    rw [List.map_cons, List.flatMap_cons, ih, List.flatMap_cons, List.flatMap_append]
    rcases h e List.mem_cons_self with ⟨x, rfl, _⟩ | ⟨d, _, rfl⟩ <;> rfl

theorem shown_shows (hu : getBoolD c.attrs "unicode" true = u) {n : Nat} {es : List Any} (h : ∀ e ∈ es, Kind e) : ∀ e ∈ es.map inl,
    Shows (renderElement L (n + 1) e) c (elText u e) := by
  intro e he
  obtain ⟨a, ha, rfl⟩ := List.mem_map.mp he
  rcases h a ha with ⟨x, rfl, hx⟩ | ⟨d, hd, rfl⟩
  · show Except.ok (Escape.renderString (getBoolD c.attrs "unicode" true) x, c) = _
    rw [hu, renderString_flat u x hx]
    rfl
  · simp only [PlainText.isSpecial, Bool.or_eq_true, beq_iff_eq] at hd
    rcases hd with (rfl | rfl) | rfl <;> rfl

/-- A paragraph shows its text. -/
theorem paragraph_shows (hL : L.tmpl.paragraph = Tmpl.Html5.paragraphTmpl) (hu : getBoolD c.attrs "unicode" true = u)
    (hh : hasOption c.attrs "hardbreaks" = false) (hw : c.within = false) (hl : c.withinList = 0) {n : Nat} {es : List Any} {t : Text} (hs : Shown es t)
    (h1 : ∀ c ∈ t.head?, c ≠ '\n') (h2 : ∀ c ∈ t.getLast?, c ≠ '\n') :
    Shows (renderElement L (n + 2) (.paragraph [] (es.map inl))) c
      ("<div class=\"paragraph\">\n<p>".toList ++ t.flatMap (char u) ++ "</p>\n</div>\n".toList) := by
  have hall := shows_all (re := renderElement L (n + 1)) (c := c) (f := elText u) (shown_shows hu hs.kinds)
  rw [shown_flat u hs.kinds, hs.text] at hall
  show renderParagraph L (renderElement L (n + 1)) _ [] _ c = _
  have hpe : paragraphElements L (renderElement L (n + 1)) [] (es.map inl) c = .ok (t.flatMap (char u), c) := by
    unfold paragraphElements
    show M.bind docAttrs _ c = _
    unfold M.bind
    show M.bind (renderAll _ _) _ c = _
    unfold M.bind
    rw [hall]
    show (if (hasOption ([] : Attrs) "hardbreaks" || hasOption c.attrs "hardbreaks") = true then (_ : M Text) else _) c = _
    rw [hh]
    rfl
  have hreg : regularParagraph L (renderElement L (n + 1)) [] (es.map inl) c =
      .ok ("<div class=\"paragraph\">\n<p>".toList ++ t.flatMap (char u) ++ "</p>\n</div>\n".toList, c) := by
    unfold regularParagraph
    show M.bind _ _ c = _
    unfold M.bind
    rw [hpe]
    show exec L (·.paragraph) _ c = _
    rw [trim_flat u h1 h2]
    unfold exec
    dsimp only
    rw [hL]
    show Except.ok (_, c) = _
    simp [Tmpl.Fn.call]
  unfold renderParagraph
  show (if c.within = true ∨ c.withinList > 0 then (_ : M Text) else _) c = _
  rw [if_neg (by rw [hw, hl]; simp)]
  exact hreg

end

/-- The attributes show paragraphs as they are. -/
structure Usual (L : Lib) (u : Bool) (a : Attrs) : Prop where
  unicode : getBoolD a "unicode" true = u
  hardbreaks : hasOption a "hardbreaks" = false
  doctype : getStrD L.sprint a "doctype" "article".toList ≠ "manpage".toList

variable {L : Lib} {u : Bool}

theorem usual_of {a b : Attrs} (h : Usual L u a) (hg : ∀ k ∈ reserved, AMap.get b k = AMap.get a k)
    (ho : AMap.get b "options" = AMap.get a "options" ∨ ∀ l, AMap.get b "options" ≠ some (.options l)) : Usual L u b := by
  refine ⟨?_, ?_, ?_⟩
  · have := h.unicode
    unfold getBoolD at this ⊢
    rw [hg _ (by decide)]; exact this
  · have := h.hardbreaks
    unfold hasOption Rend.has at this ⊢
    rw [hg "hardbreaks" (by decide)]
    rcases ho with ho | ho
    · rw [ho]; exact this
    · rw [Bool.or_eq_false_iff] at this ⊢
      refine ⟨?_, this.2⟩
      split
      · next l e => exact absurd e (ho l)
      · rfl
  · have := h.doctype
    unfold getStrD at this ⊢
    rw [hg _ (by decide)]; exact this

theorem usual_set {a : Attrs} (h : Usual L u a) {n : String} (hn : n ∉ reserved) (v : Text) : Usual L u (a.set n (.str v)) := by
  refine usual_of h (fun k hk => ?_) ?_
  · rw [AMap.get_set, if_neg]
    rintro rfl; exact hn hk
  · rw [AMap.get_set]
    by_cases ho : "options" = n
    · rw [if_pos ho]; exact .inr (fun l e => nomatch e)
    · rw [if_neg ho]; exact .inl rfl

theorem usual_del {a : Attrs} (h : Usual L u a) {n : String} (hn : n ∉ reserved) : Usual L u (a.del n) := by
  refine usual_of h (fun k hk => ?_) ?_
  · rw [AMap.get_del, if_neg]
    rintro rfl; exact hn hk
  · rw [AMap.get_del]
    by_cases ho : "options" = n
    · rw [if_pos ho]; exact .inr (fun l e => nomatch e)
    · rw [if_neg ho]; exact .inl rfl

/-- Names that are declared are not those of attributes that change how paragraphs are shown. -/
def Free : Item → Prop
  | .declare n _ _ => n ∉ reserved
  | .reset n _ _ => n ∉ reserved
  | _ => True

/-- The text of a paragraph does not begin or end with an end of line. -/
def Neat (s : State) : List Item → Prop
  | [] => True
  | x :: xs => Free x ∧ (match x with
    | .para l ls => (∀ c ∈ (shown s (body (l :: ls))).head?, c ≠ '\n') ∧ ∀ c ∈ (shown s (body (l :: ls))).getLast?, c ≠ '\n'
    | _ => True) ∧ Neat (x.next s) xs

/-- Between paragraphs. -/
structure Calm (L : Lib) (u : Bool) (c : Rend.Ctx) : Prop where
  usual : Usual L u c.attrs
  within : c.within = false
  list : c.withinList = 0

theorem items_show (hL : L.tmpl.paragraph = Tmpl.Html5.paragraphTmpl) {n : Nat} : ∀ {xs : List Item} {s : State} {as : List Any} {c : Rend.Ctx}, Contents s xs as →
    Neat s xs → Calm L u c → ∃ c', renderAll (renderElement L (n + 2)) ((as.filter notBlank).map toEl) c = .ok (page u s xs, c')
  | [], _, _, c, .nil, _, _ => ⟨c, rfl⟩
  | x :: xs, s, _, c, .cons (as := as) hx hr, ⟨hf, ht, hn⟩, hc => by
    have step : ∀ {e : El} {t : Text} {c1 : Rend.Ctx}, renderElement L (n + 2) e c = .ok (t, c1) → Calm L u c1 →
        ∃ c', renderAll (renderElement L (n + 2)) (e :: (as.filter notBlank).map toEl) c = .ok (t ++ page u (x.next s) xs, c') := by
      intro e t c1 he h1
      obtain ⟨c', ih⟩ := items_show hL (n := n) hr hn h1
      refine ⟨c', ?_⟩
      show M.bind (renderElement L (n + 2) e) _ c = _
      unfold M.bind
      rw [he]
      show M.bind (renderAll _ _) _ c1 = _
      unfold M.bind
      rw [show renderAll (renderElement L (n + 2)) ((as.filter notBlank).map toEl) c1 = _ from ih]
      rfl
    cases x with
    | para l ls =>
      obtain ⟨es, rfl, hs⟩ := hx
      exact step (paragraph_shows hL hc.usual.unicode hc.usual.hardbreaks hc.within hc.list hs ht.1 ht.2) hc
    | blank w =>
      obtain rfl := hx
      have ih := items_show hL (n := n) hr hn hc
      exact ih
    | declare m g v =>
      obtain rfl := hx
      exact step (t := []) rfl ⟨usual_set hc.usual hf _, hc.within, hc.list⟩
    | reset m b t =>
      obtain rfl := hx
      exact step (t := []) rfl ⟨usual_del hc.usual hf, hc.within, hc.list⟩

theorem header_items : ∀ {xs : List Item} {s : State} {as : List Any}, Contents s xs as → header ((as.filter notBlank).map toEl) = none
  | [], _, _, .nil => rfl
  | x :: xs, s, _, .cons (as := as) hx hr => by
    cases x with
    | para l ls => obtain ⟨es, rfl, _⟩ := hx; rfl
    | blank w => obtain rfl := hx; have ih := header_items hr; exact ih
    | declare m g v => obtain rfl := hx; rfl
    | reset m b t => obtain rfl := hx; rfl

theorem body_items : ∀ {xs : List Item} {s : State} {as : List Any}, Contents s xs as →
    bodyElements ((as.filter notBlank).map toEl) = (as.filter notBlank).map toEl
  | [], _, _, .nil => rfl
  | x :: xs, s, _, .cons (as := as) hx hr => by
    have ih := body_items hr
    cases x with
    | para l ls => obtain ⟨es, rfl, _⟩ := hx; exact congrArg (_ :: ·) ih
    | blank w => obtain rfl := hx; exact ih
    | declare m g v => obtain rfl := hx; exact congrArg (_ :: ·) ih
    | reset m b t => obtain rfl := hx; exact congrArg (_ :: ·) ih

theorem decls_items : ∀ {xs : List Item} {s : State} {as : List Any} {a : Attrs}, Contents s xs as → Neat s xs → Usual L u a →
    Usual L u (leadingDecls ((as.filter notBlank).map toEl) a)
  | [], _, _, _, .nil, _, h => h
  | x :: xs, s, _, a, .cons (as := as) hx hr, ⟨hf, ht, hn⟩, h => by
    cases x with
    | para l ls => obtain ⟨es, rfl, _⟩ := hx; exact h
    | blank w => obtain rfl := hx; have ih := decls_items hr hn h; exact ih
    | declare m g v => obtain rfl := hx; have ih := decls_items hr hn (usual_set h hf (shown s v)); exact ih
    | reset m b t => obtain rfl := hx; have ih := decls_items hr hn (usual_del h hf); exact ih

/-- The page of a document with declarations and references. -/
theorem page_of {cfg : Config} (hL : L.tmpl.paragraph = Tmpl.Html5.paragraphTmpl) (hA : C60.Article L cfg) {s : State} {xs : List Item} {as : List Any}
    (hc : Contents s xs as) (hn : Neat s xs) (n : Nat) :
    render L (n + 2) ⟨(as.filter notBlank).map toEl, [], [], none⟩ cfg = .ok (page (getBoolD cfg.attrs "unicode" true) s xs) := by
  have husual : Usual L (getBoolD cfg.attrs "unicode" true) (defaultAttrs cfg) := by
    refine ⟨?_, ?_, ?_⟩
    · unfold getBoolD
      rw [get_default cfg (by decide)]
    · have := hA.hardbreaks
      unfold hasOption Rend.has at this ⊢
      rw [get_default cfg (by decide), get_default cfg (by decide)]
      exact this
    · have := hA.doctype
      unfold getStrD at this ⊢
      rw [get_default cfg (by decide)]
      exact this
  have hstartU := decls_items hc hn husual
  have hhead := header_items hc
  have hbodyE := body_items hc
  generalize hels : (as.filter notBlank).map toEl = els at hstartU hhead hbodyE
  let c : Rend.Ctx := ⟨leadingDecls els (defaultAttrs cfg), false, 0, [], [], false, sectionNumbers els, []⟩
  have hstart : startContext ⟨els, [], [], none⟩ ⟨defaultAttrs cfg, false, 0, [], [], false, [], []⟩ = c := by
    unfold startContext
    dsimp only
    rw [hhead]
  have hctx : newContext ⟨els, [], [], none⟩ cfg = .ok ⟨defaultAttrs cfg, false, 0, [], [], false, [], []⟩ := by
    unfold newContext
    dsimp only
    rw [hhead]
    rfl
  obtain ⟨c', hall⟩ := items_show (u := getBoolD cfg.attrs "unicode" true) (c := c) hL (n := n) hc hn ⟨hstartU, rfl, rfl⟩
  rw [hels] at hall
  have hbody : documentBody L (renderElement L (n + 2)) els none [] c = .ok (page (getBoolD cfg.attrs "unicode" true) s xs, c') := by
    unfold documentBody
    show M.bind (M.lift (placeToc _ none _)) _ c = _
    unfold M.bind
    rw [place_none]
    show M.bind (renderAll _ _) _ c = _
    unfold M.bind
    rw [show renderAll (renderElement L (n + 2)) els c = _ from hall]
    show Except.ok (page _ s xs ++ [], c') = _
    rw [List.append_nil]
  have hsplit : ∀ pl, splitAndRender L (renderElement L (n + 2)) pl cfg.wrap ⟨els, [], [], none⟩ c =
      .ok (([], page (getBoolD cfg.attrs "unicode" true) s xs), c') := by
    intro pl
    unfold splitAndRender
    show (if getStrD L.sprint c.attrs "doctype" "article".toList = "manpage".toList then (_ : M (Text × Text)) else _) c = _
    rw [if_neg hstartU.doctype]
    show M.bind (documentHeader L _ (header els)) _ c = _
    unfold M.bind
    rw [hhead]
    show M.bind (documentBody L _ (bodyElements els) none []) _ c = _
    unfold M.bind
    rw [hbodyE, hbody]
    rfl
  unfold render
  dsimp only
  rw [hctx]
  dsimp only
  rw [hhead, hstart]
  show (match renderParts L _ _ cfg.wrap ⟨els, [], [], none⟩ c with
    | .error e => Except.error e
    | .ok (parts, c) => renderPage L ⟨els, [], [], none⟩ cfg _ parts c) = _
  have hparts : ∀ pl, renderParts L (renderElement L (n + 2)) pl cfg.wrap ⟨els, [], [], none⟩ c =
      .ok (([], page (getBoolD cfg.attrs "unicode" true) s xs, []), c') := by
    intro pl
    unfold renderParts
    show M.bind (splitAndRender L _ pl cfg.wrap ⟨els, [], [], none⟩) _ c = _
    unfold M.bind
    rw [hsplit pl]
    show M.bind (documentRoles _ (header els)) _ c' = _
    rw [hhead]
    rfl
  rw [hparts]
  dsimp only
  unfold renderPage
  rw [hA.body]
  rfl

end C67
end Verif
