import Verif.Spec.Prose
import Verif.Model.Render
import Verif.Model.Refine
import Verif.Props.PlainParagraphs
import Verif.Props.Documents
import Verif.Model.Footnotes
import Verif.Model.Lists
import Verif.Model.Filter
import Verif.Model.Aggregate
import Verif.Props.Wellformed

/-!
# C60 — Plain prose, from the text to the page
-/
namespace Verif
namespace C60
open Paragraphs Prose
open Walk (Any)
open Rend

/-- Inline elements, as the renderer receives them. -/
def inl : Any → El
  | .str t => .str t
  | .special t => .special t
  | _ => .other

/-- Elements of a document of prose, as the renderer receives them. -/
def toEl : Any → El
  | .paragraph _ es => .paragraph [] (es.map inl)
  | .leaf _ => .blankLine
  | _ => .other

/-! ### Rendering -/

theorem renderString_flat (u : Bool) : ∀ (t : Text), (∀ c ∈ t, PlainText.isSpecial c = false) → Escape.renderString u t = t.flatMap (char u)
  | [], _ => by cases u <;> rfl
  | c :: t, h => by
    have ih := renderString_flat u t (fun d hd => h d (List.mem_cons_of_mem _ hd))
    have hc := h c List.mem_cons_self
    have hn : c ≠ '<' ∧ c ≠ '>' ∧ c ≠ '&' := by
      simp only [PlainText.isSpecial, Bool.or_eq_false_iff, beq_eq_false_iff_ne] at hc
      exact ⟨hc.1.1, hc.1.2, hc.2⟩
    rw [List.flatMap_cons, ← ih]
    unfold char
    rw [if_neg hn.1, if_neg hn.2.1, if_neg hn.2.2]
    cases u with
    | true => rfl
    | false =>
      show (if Escape.plainASCII c then [c] else _) ++ Escape.asciiEntify t = _ ++ Escape.asciiEntify t
      congr 1
      have hb : Escape.plainASCII c = true ↔ (false = true ∨ (32 ≤ c.toNat ∧ c.toNat ≤ 126) ∨ (9 ≤ c.toNat ∧ c.toNat ≤ 13)) := by
        unfold Escape.plainASCII
        simp only [Bool.and_eq_true, Bool.or_eq_true, decide_eq_true_eq, Bool.false_eq_true, false_or]
        omega
      by_cases hp : Escape.plainASCII c = true
      · rw [if_pos hp, if_pos (hb.mp hp)]
      · rw [if_neg hp, if_neg (fun h => hp (hb.mpr h))]

/-- An element is rendered to a text, and the context is left as it is. -/
def Shows (m : M Text) (c : Rend.Ctx) (t : Text) : Prop := m c = .ok (t, c)

theorem shows_all {re : El → M Text} {c : Rend.Ctx} {f : El → Text} : ∀ {es : List El}, (∀ e ∈ es, Shows (re e) c (f e)) → Shows (renderAll re es) c (es.flatMap f)
  | [], _ => rfl
  | e :: es, h => by
    have h1 := h e List.mem_cons_self
    have h2 := shows_all (re := re) (fun x hx => h x (List.mem_cons_of_mem _ hx))
    unfold Shows at *
    show M.bind (re e) _ c = _
    unfold M.bind
    rw [h1]
    show M.bind (renderAll re es) _ c = _
    unfold M.bind
    rw [h2]
    rfl

/-- The text of an inline element. -/
def elText (u : Bool) : El → Text
  | .str t => t.flatMap (char u)
  | .special t => t.flatMap (char u)
  | _ => []

theorem pieces_flat (u : Bool) : ∀ t : Text, ((PlainText.pieces true t).map inl).flatMap (elText u) = t.flatMap (char u)
  | [] => rfl
  | c :: t => by
    have ih := pieces_flat u t
    rw [List.flatMap_cons, ← ih]
    conv => lhs; unfold PlainText.pieces
    split
    · simp [inl, elText]
    · split
      · simp [inl, elText, *]
      · simp [inl, elText]

theorem pieces_kinds : ∀ (t : Text), ∀ e ∈ PlainText.pieces true t, (∃ x, e = .str x ∧ ∀ c ∈ x, PlainText.isSpecial c = false) ∨
    ∃ c, PlainText.isSpecial c = true ∧ e = .special [c]
  | [], _, h => nomatch h
  | c :: t, e, h => by
    have ih := pieces_kinds t
    unfold PlainText.pieces at h
    split at h
    · next hc =>
      rcases List.mem_cons.mp h with rfl | h
      · exact .inr ⟨c, by simpa using hc, rfl⟩
      · exact ih e h
    · next hc =>
      have hc : PlainText.isSpecial c = false := by simpa using hc
      split at h
      · next u es he =>
        rw [he] at ih
        rcases List.mem_cons.mp h with rfl | h
        · refine .inl ⟨_, rfl, fun d hd => ?_⟩
          rcases List.mem_cons.mp hd with rfl | hd
          · exact hc
          · rcases ih (.str u) List.mem_cons_self with ⟨x, hx, hs⟩ | ⟨_, _, hx⟩
            · cases hx; exact hs d hd
            · cases hx
        · exact ih e (List.mem_cons_of_mem _ h)
      · rcases List.mem_cons.mp h with rfl | h
        · refine .inl ⟨_, rfl, fun d hd => ?_⟩
          rcases List.mem_cons.mp hd with rfl | hd
          · exact hc
          · cases hd
        · exact ih e h

section
variable {L : Lib} {c : Rend.Ctx} {u : Bool}

theorem piece_shows (hu : getBoolD c.attrs "unicode" true = u) {n : Nat} {t : Text} : ∀ e ∈ (PlainText.pieces true t).map inl,
    Shows (renderElement L (n + 1) e) c (elText u e) := by
  intro e he
  obtain ⟨a, ha, rfl⟩ := List.mem_map.mp he
  rcases pieces_kinds t a ha with ⟨x, rfl, hx⟩ | ⟨d, hd, rfl⟩
  · show Except.ok (Escape.renderString (getBoolD c.attrs "unicode" true) x, c) = _
    rw [hu, renderString_flat u x hx]
    rfl
  · simp only [PlainText.isSpecial, Bool.or_eq_true, beq_iff_eq] at hd
    rcases hd with (rfl | rfl) | rfl <;> rfl

theorem char_first (u : Bool) (c : Char) (h : c ≠ '\n') : ∃ d x, char u c = d :: x ∧ d ≠ '\n' := by
  unfold char
  split
  · exact ⟨_, _, rfl, by decide⟩
  · split
    · exact ⟨_, _, rfl, by decide⟩
    · split
      · exact ⟨_, _, rfl, by decide⟩
      · split
        · exact ⟨_, _, rfl, h⟩
        · exact ⟨_, _, rfl, by decide⟩

theorem char_last (u : Bool) (c : Char) (h : c ≠ '\n') : ∃ x d, char u c = x ++ [d] ∧ d ≠ '\n' := by
  unfold char
  split
  · exact ⟨"&lt".toList, ';', rfl, by decide⟩
  · split
    · exact ⟨"&gt".toList, ';', rfl, by decide⟩
    · split
      · exact ⟨"&amp".toList, ';', rfl, by decide⟩
      · split
        · exact ⟨[], c, rfl, h⟩
        · exact ⟨_, ';', rfl, by decide⟩

theorem trim_flat (u : Bool) {t : Text} (h1 : ∀ c ∈ t.head?, c ≠ '\n') (h2 : ∀ c ∈ t.getLast?, c ≠ '\n') :
    Rend.trim (· == '\n') (t.flatMap (char u)) = t.flatMap (char u) := by
  cases t with
  | nil => rfl
  | cons c t =>
    obtain ⟨d, x, e, hd⟩ := char_first u c (h1 c rfl)
    have e1 : ((c :: t).flatMap (char u)).dropWhile (· == '\n') = (c :: t).flatMap (char u) := by
      rw [List.flatMap_cons, e, List.cons_append, List.dropWhile_cons_of_neg (by simpa using hd)]
    unfold Rend.trim
    rw [e1]
    have hne : (c :: t) ≠ [] := fun h => nomatch h
    have hl := h2 _ (List.getLast?_eq_some_getLast hne)
    obtain ⟨y, d, e, hd⟩ := char_last u _ hl
    conv => lhs; rw [← List.dropLast_concat_getLast hne]
    conv => rhs; rw [← List.dropLast_concat_getLast hne]
    rw [List.flatMap_append, List.flatMap_cons, List.flatMap_nil, List.append_nil, e]
    unfold Rend.trimRight
    rw [← List.append_assoc, List.reverse_append, List.reverse_cons, List.reverse_nil, List.nil_append, List.singleton_append,
      List.dropWhile_cons_of_neg (by simpa using hd), List.reverse_cons, List.reverse_reverse]

theorem paragraph_shows (hL : L.tmpl.paragraph = Tmpl.Html5.paragraphTmpl) (hu : getBoolD c.attrs "unicode" true = u)
    (hh : hasOption c.attrs "hardbreaks" = false) (hw : c.within = false) (hl : c.withinList = 0) {n : Nat} {t : Text}
    (h1 : ∀ c ∈ t.head?, c ≠ '\n') (h2 : ∀ c ∈ t.getLast?, c ≠ '\n') :
    Shows (renderElement L (n + 2) (toEl (.paragraph [] (PlainText.pieces true t)))) c
      ("<div class=\"paragraph\">\n<p>".toList ++ t.flatMap (char u) ++ "</p>\n</div>\n".toList) := by
  have hall := shows_all (re := renderElement L (n + 1)) (c := c) (f := elText u) (piece_shows (t := t) hu)
  rw [pieces_flat] at hall
  show renderParagraph L (renderElement L (n + 1)) _ [] _ c = _
  have hpe : paragraphElements L (renderElement L (n + 1)) [] ((PlainText.pieces true t).map inl) c = .ok (t.flatMap (char u), c) := by
    unfold paragraphElements
    show M.bind docAttrs _ c = _
    unfold M.bind
    show M.bind (renderAll _ _) _ c = _
    unfold M.bind
    rw [hall]
    show (if (hasOption ([] : Attrs) "hardbreaks" || hasOption c.attrs "hardbreaks") = true then (_ : M Text) else _) c = _
    rw [hh]
    rfl
  have hreg : regularParagraph L (renderElement L (n + 1)) [] ((PlainText.pieces true t).map inl) c =
      .ok ("<div class=\"paragraph\">\n<p>".toList ++ t.flatMap (char u) ++ "</p>\n</div>\n".toList, c) := by
    unfold regularParagraph
    show M.bind _ _ c = _
    unfold M.bind
    rw [hpe]
    show exec L (·.paragraph) _ c = _
    rw [trim_flat u h1 h2]
    unfold exec
    dsimp only
    rw [hL]
    show Except.ok (_, c) = _
    simp [Tmpl.Fn.call]
  unfold renderParagraph
  show (if c.within = true ∨ c.withinList > 0 then (_ : M Text) else _) c = _
  rw [if_neg (by rw [hw, hl]; simp)]
  exact hreg

end

theorem text_eq : ∀ ls : List Line, C59.body ls = text ls
  | [] => rfl
  | [_] => rfl
  | l :: l' :: ls => by
    have ih := text_eq (l' :: ls)
    show l.text ++ '\n' :: C59.body (l' :: ls) = l.text ++ '\n' :: text (l' :: ls)
    rw [ih]

/-- The first and the last character of a paragraph. -/
theorem text_ends {ls : List Line} (hok : ∀ l ∈ ls, l.Ok) : (∀ c ∈ (text ls).head?, c ≠ '\n') ∧ ∀ c ∈ (text ls).getLast?, c ≠ '\n' := by
  have line : ∀ l : Line, l.Ok → l.text ≠ [] ∧ ∀ c ∈ l.text, c ≠ '\n' := by
    intro l h
    refine ⟨?_, fun c hc e => absurd (h.one c (List.mem_append_left _ hc)) (by rw [e]; decide)⟩
    obtain ⟨c, hc, _⟩ := h.visible
    exact List.ne_nil_of_mem hc
  constructor
  · intro c hc
    cases ls with
    | nil => cases hc
    | cons l ls =>
      obtain ⟨hn, hl⟩ := line l (hok l List.mem_cons_self)
      cases ht : l.text with
      | nil => exact absurd ht hn
      | cons d x =>
        have : (text (l :: ls)).head? = some d := by
          cases ls <;> simp [text, joinLF, ht]
        rw [this] at hc
        cases hc
        exact hl _ (by rw [ht]; exact List.mem_cons_self)
  · induction ls with
    | nil => intro c hc; cases hc
    | cons l ls ih =>
      obtain ⟨hn, hl⟩ := line l (hok l List.mem_cons_self)
      cases ls with
      | nil => intro c hc; exact hl c (List.mem_of_getLast? hc)
      | cons l' ls =>
        intro c hc
        refine ih (fun x hx => hok x (List.mem_cons_of_mem _ hx)) c ?_
        have hne : text (l' :: ls) ≠ [] := by
          obtain ⟨hn', _⟩ := line l' (hok l' (by simp))
          cases ls with
          | nil => simpa [text, joinLF] using hn'
          | cons l2 ls => simp [text, joinLF]
        have e : text (l :: l' :: ls) = (l.text ++ ['\n']) ++ text (l' :: ls) := by simp [text, joinLF]
        rw [e, List.getLast?_append_of_ne_nil _ hne] at hc
        exact hc

/-! ### The stages -/

/-- Is it a paragraph? -/
def isPara : Block → Bool
  | .para _ _ => true
  | .blank _ => false

/-- The paragraphs of a document, after the substitutions. -/
def paras (bs : List Block) : List Any := (bs.filter isPara).map C59.content

/-- What the renderer is given. -/
def document (bs : List Block) : Doc := ⟨(paras bs).map toEl, [], [], none⟩

/-- A configuration for an article, without `:hardbreaks:`. -/
structure Article (L : Lib) (cfg : Config) : Prop where
  doctype : getStrD L.sprint cfg.attrs "doctype" "article".toList ≠ "manpage".toList
  hardbreaks : hasOption cfg.attrs "hardbreaks" = false
  body : cfg.wrap = false

theorem get_default (cfg : Config) {k : String} (h : k ∉ ["figure-caption", "example-caption", "table-caption", "version-label"]) :
    AMap.get (defaultAttrs cfg) k = AMap.get cfg.attrs k := by
  simp only [List.mem_cons, List.not_mem_nil, or_false, not_or] at h
  unfold defaultAttrs
  rw [AMap.get_set, if_neg h.2.2.2, AMap.get_set, if_neg h.2.2.1, AMap.get_set, if_neg h.2.1, AMap.get_set, if_neg h.1]

theorem header_paras : ∀ bs : List Block, header ((paras bs).map toEl) = none
  | [] => rfl
  | .blank _ :: bs => header_paras bs
  | .para _ _ :: _ => rfl

theorem decls_paras (a : Attrs) : ∀ bs : List Block, leadingDecls ((paras bs).map toEl) a = a
  | [] => rfl
  | .blank _ :: bs => decls_paras a bs
  | .para _ _ :: _ => rfl

theorem body_paras : ∀ bs : List Block, bodyElements ((paras bs).map toEl) = (paras bs).map toEl
  | [] => rfl
  | .blank _ :: bs => body_paras bs
  | .para l ls :: bs => congrArg (_ :: ·) (body_paras bs)

theorem place_none (doc : Attrs) (els : List El) : placeToc doc none els = .ok els := by
  unfold placeToc
  split <;> first | rfl | (next h => cases h)

/-- All lines are lines. -/
def AllOk (bs : List Block) : Prop := ∀ l ls, .para l ls ∈ bs → ∀ x ∈ l :: ls, x.Ok

theorem allOk_of {alnum : Char → Bool} : ∀ {bs : List Block}, Good alnum bs → AllOk bs
  | [], _ => fun _ _ h => nomatch h
  | b :: bs, h => by
    intro l ls hm x hx
    rcases List.mem_cons.mp hm with rfl | hm
    · rcases List.mem_cons.mp hx with rfl | hx
      · exact h.1
      · exact (h.2.2.1 x hx).1
    · exact allOk_of (C59.good_tail h) l ls hm x hx

theorem paras_shows {L : Lib} {c : Rend.Ctx} {u : Bool} (hL : L.tmpl.paragraph = Tmpl.Html5.paragraphTmpl) (hu : getBoolD c.attrs "unicode" true = u)
    (hh : hasOption c.attrs "hardbreaks" = false) (hw : c.within = false) (hl : c.withinList = 0) {n : Nat} : ∀ {bs : List Block}, AllOk bs →
    Shows (renderAll (renderElement L (n + 2)) ((paras bs).map toEl)) c (page u bs)
  | [], _ => rfl
  | .blank w :: bs, h => paras_shows hL hu hh hw hl (bs := bs) (fun l ls hm => h l ls (List.mem_cons_of_mem _ hm))
  | .para l ls :: bs, h => by
    have ih := paras_shows hL hu hh hw hl (n := n) (bs := bs) (fun l ls hm => h l ls (List.mem_cons_of_mem _ hm))
    obtain ⟨h1, h2⟩ := text_ends (h l ls List.mem_cons_self)
    have hp := paragraph_shows (n := n) hL hu hh hw hl h1 h2
    rw [← text_eq] at hp
    unfold Shows at *
    show M.bind (renderElement L (n + 2) (toEl (C59.content (.para l ls)))) _ c = _
    unfold M.bind
    rw [show renderElement L (n + 2) (toEl (C59.content (.para l ls))) c = _ from hp]
    show M.bind (renderAll _ _) _ c = _
    unfold M.bind
    rw [show renderAll (renderElement L (n + 2)) (List.map toEl (List.map C59.content (List.filter isPara bs))) c = _ from ih, text_eq]
    rfl

/-- The page of a document of prose. -/
theorem page_of {L : Lib} {cfg : Config} (hL : L.tmpl.paragraph = Tmpl.Html5.paragraphTmpl) (hA : Article L cfg) {bs : List Block} (hok : AllOk bs)
    (n : Nat) : render L (n + 2) (document bs) cfg = .ok (page (getBoolD cfg.attrs "unicode" true) bs) := by
  have hu : getBoolD (defaultAttrs cfg) "unicode" true = getBoolD cfg.attrs "unicode" true := by
    unfold getBoolD
    rw [get_default cfg (by decide)]
  have hh : hasOption (defaultAttrs cfg) "hardbreaks" = false := by
    have := hA.hardbreaks
    unfold hasOption Rend.has at this ⊢
    rw [get_default cfg (by decide), get_default cfg (by decide)]
    exact this
  have hd : getStrD L.sprint (defaultAttrs cfg) "doctype" "article".toList ≠ "manpage".toList := by
    have := hA.doctype
    unfold getStrD at this ⊢
    rw [get_default cfg (by decide)]
    exact this
  have hhead : header (document bs).elements = none := header_paras bs
  let c : Rend.Ctx := ⟨defaultAttrs cfg, false, 0, [], [], false, sectionNumbers (document bs).elements, []⟩
  have hstart : startContext (document bs) ⟨defaultAttrs cfg, false, 0, [], [], false, [], []⟩ = c := by
    unfold startContext
    rw [hhead]
    show ({ attrs := leadingDecls ((paras bs).map toEl) (defaultAttrs cfg), .. } : Rend.Ctx) = _
    rw [decls_paras]
  have hctx : newContext (document bs) cfg = .ok ⟨defaultAttrs cfg, false, 0, [], [], false, [], []⟩ := by
    unfold newContext
    rw [hhead]
    rfl
  have hall := paras_shows (c := c) hL hu hh rfl rfl (n := n) hok
  have hbody : documentBody L (renderElement L (n + 2)) ((paras bs).map toEl) none [] c = .ok (page (getBoolD cfg.attrs "unicode" true) bs, c) := by
    unfold documentBody
    show M.bind (M.lift (placeToc _ none _)) _ c = _
    unfold M.bind
    rw [place_none]
    show M.bind (renderAll _ _) _ c = _
    unfold M.bind
    rw [show renderAll (renderElement L (n + 2)) (List.map toEl (paras bs)) c = _ from hall]
    show Except.ok (page _ bs ++ [], c) = _
    rw [List.append_nil]
  have hsplit : ∀ pl, splitAndRender L (renderElement L (n + 2)) pl cfg.wrap { document bs with toc := none } c =
      .ok (([], page (getBoolD cfg.attrs "unicode" true) bs), c) := by
    intro pl
    unfold splitAndRender
    show (if getStrD L.sprint (defaultAttrs cfg) "doctype" "article".toList = "manpage".toList then (_ : M (Text × Text)) else _) c = _
    rw [if_neg hd]
    show M.bind (documentHeader L _ (header (document bs).elements)) _ c = _
    unfold M.bind
    rw [hhead]
    show M.bind (documentBody L _ (bodyElements ((paras bs).map toEl)) none []) _ c = _
    unfold M.bind
    rw [body_paras, hbody]
    rfl
  unfold render
  dsimp only
  rw [hctx]
  dsimp only
  rw [hhead, hstart]
  show (match renderParts L _ _ cfg.wrap (document bs) c with
    | .error e => Except.error e
    | .ok (parts, c) => renderPage L (document bs) cfg _ parts c) = _
  have hparts : ∀ pl, renderParts L (renderElement L (n + 2)) pl cfg.wrap (document bs) c =
      .ok (([], page (getBoolD cfg.attrs "unicode" true) bs, []), c) := by
    intro pl
    unfold renderParts
    show M.bind (splitAndRender L _ pl cfg.wrap { document bs with toc := none }) _ c = _
    unfold M.bind
    rw [hsplit pl]
    show M.bind (documentRoles _ (header (document bs).elements)) _ c = _
    rw [hhead]
    rfl
  rw [hparts]
  dsimp only
  unfold renderPage
  rw [hA.body]
  rfl

/-! ### The stages between the substitutions and the renderer

Their models (C18, C19, C20, C12) look at elements in different ways; `num` names what they do not look at. -/

section
variable (num : Any → Nat)

/-- An element for the collection of footnotes. -/
def footView : Any → Foot.FNode
  | .paragraph _ es => .para (es.map (fun e => .leaf (num e)))
  | e => .leaf (num e)

/-- An element for the filter. -/
def filterView : Any → Filter.FEl
  | .paragraph a es => .parent (num (.paragraph a es)) (es.map (fun e => .leaf (num e)))
  | _ => .blank

theorem sub_leaves (n : Foot.Notes) : ∀ es : List Any, Foot.subInline n (es.map (fun e => .leaf (num e))) = (n, es.map (fun e => .leaf (num e)))
  | [] => rfl
  | e :: es => by
    show ((Foot.subInline n (es.map _)).1, _ :: (Foot.subInline n (es.map _)).2) = _
    rw [sub_leaves n es]
    rfl

/-- There are no footnotes. -/
theorem no_footnotes (n : Foot.Notes) : ∀ bs : List Block, Foot.collectAll n (bs.map (fun b => [footView num (C59.content b)])) =
    (n, bs.map (fun b => [footView num (C59.content b)]))
  | [] => rfl
  | b :: bs => by
    have h : Foot.substAll n [footView num (C59.content b)] = (n, [footView num (C59.content b)]) := by
      cases b with
      | blank w => rfl
      | para l ls =>
        show ((Foot.subInline n _).1, [Foot.FNode.para (Foot.subInline n _).2]) = _
        rw [sub_leaves]
        rfl
    show ((Foot.collectAll (Foot.substAll n _).1 _).1, (Foot.substAll n _).2 :: (Foot.collectAll (Foot.substAll n _).1 _).2) = _
    rw [h, no_footnotes n bs]
    rfl

/-- There are no lists. -/
theorem no_lists (b : Block) : Lists.arrangeEls [.leaf (num (C59.content b))] = some [.leaf (num (C59.content b))] := rfl

theorem filter_leaves : ∀ es : List Any, Filter.filterOut (es.map (fun e => .leaf (num e))) = es.map (fun e => .leaf (num e))
  | [] => by rfl
  | e :: es => by
    have ih := filter_leaves es
    simp only [List.map_cons, Filter.filterOut, Filter.isNoise, Filter.inside, Filter.isEmptyHeader, ih]
    rfl

/-- Blank lines are dropped, paragraphs are kept. -/
theorem blanks_dropped (bs : List Block) : bs.flatMap (fun b => Filter.filterOut [filterView num (C59.content b)]) = (paras bs).map (filterView num) := by
  induction bs with
  | nil => rfl
  | cons b bs ih =>
    rw [List.flatMap_cons, ih]
    cases b with
    | blank w =>
      show Filter.filterOut [.blank] ++ _ = (paras bs).map _
      simp [Filter.filterOut, Filter.isNoise]
    | para l ls =>
      show Filter.filterOut [.parent _ (List.map _ _)] ++ _ = _ :: (paras bs).map _
      simp only [Filter.filterOut, Filter.isNoise, Filter.inside, Filter.isEmptyHeader, filter_leaves]
      rfl

/-- Elements side by side. -/
def siblings : List Elem → Forest Elem
  | [] => .nil
  | e :: es => .cons e .nil (siblings es)

theorem snoc_siblings (e : Elem) : ∀ es : List Elem, Forest.snoc e (siblings es) = siblings (es ++ [e])
  | [] => rfl
  | x :: es => by show Forest.cons _ _ (Forest.snoc e (siblings es)) = _; rw [snoc_siblings e es]; rfl

/-- No sections: the paragraphs are put side by side, in order, and there is no preamble. -/
theorem flat (es : List Any) : aggregateTree (es.map (fun e => .block (num e) [])) = siblings (es.map (fun e => .block (num e) [])) := by
  have key : ∀ (es : List Any) (xs : List Elem), ((es.map (fun e => Elem.block (num e) [])).foldl Agg.append ⟨siblings xs, []⟩) =
      ⟨siblings (xs ++ es.map (fun e => .block (num e) [])), []⟩ := by
    intro es
    induction es with
    | nil => intro xs; simp
    | cons e es ih =>
      intro xs
      rw [List.map_cons, List.foldl_cons]
      have : Agg.append ⟨siblings xs, []⟩ (.block (num e) []) = ⟨siblings (xs ++ [.block (num e) []]), []⟩ := by
        show Agg.mk (Forest.insertAt 0 _ (siblings xs)) [] = _
        unfold Forest.insertAt
        rw [snoc_siblings]
      rw [this, ih]
      simp
  have := key es []
  exact congrArg Agg.tree this

theorem no_preamble (es : List Any) : insertPreamble (es.map (fun e => .block (num e) [])) = (es.map (fun e => .block (num e) [])).map .elem := by
  have : newPreamble (es.map (fun e => .block (num e) [])) = none := by
    cases es <;> rfl
  unfold insertPreamble
  rw [this]

end

/-- Paragraphs and blank lines have nothing to refine. -/
theorem nothing_to_refine (R : Refine.Reader) (n : Nat) (b : Block) : Refine.refineFragment R (n + 1) (.elements [b.element]) = .done (.elements [b.element]) := by
  cases b <;> rfl

/-! ### From the text to the page -/

/-- The stages of a conversion (libasciidoc.go:50-98, document_processing.go:16-46), for a document whose elements are paragraphs and blank lines: the text
`src` is preprocessed; the result is cut into blocks, each one a fragment; the fragments are refined; substitutions are applied; footnotes are
collected; lists are arranged; blank lines are filtered out; what remains is aggregated, and rendered. `num` names elements for the stages whose
models do not look at them. -/
structure Stages {σ : Type} (env : Env) (files : Nat) (ctx : Verif.Ctx) (S : Peg.Sem σ) (A : Peg.Code σ) (s : σ) (R : Refine.Reader) (W : Walk.World)
    (c : Walk.Ctx) (L : Lib) (cfg : Config) (src : Text) (html : Text) where
  text : Text
  blocks : List Any
  contents : List Any
  kept : List Any
  preprocessed : preprocess env (files + 1) ctx src = .ok (text, ctx.offsets)
  parsed : ∃ depth rounds, FragmentLoop.loopV S A (fun _ => false) depth rounds s text = some ⟨blocks.map (fun b => [b]), .endOfDocument, []⟩
  refined : ∀ b ∈ blocks, ∀ n, Refine.refineFragment R (n + 1) (.elements [b]) = .done (.elements [b])
  same : contents.length = blocks.length
  substituted : ∀ p ∈ blocks.zip contents, Walk.substFragment W c (.elements [p.1]) = .ok (.elements [p.2], c)
  footnotes : ∀ num notes, Foot.collectAll notes (contents.map (fun e => [footView num e])) = (notes, contents.map (fun e => [footView num e]))
  lists : ∀ (num : Any → Nat), ∀ e ∈ contents, Lists.arrangeEls [.leaf (num e)] = some [.leaf (num e)]
  filtered : ∀ num, contents.flatMap (fun e => Filter.filterOut [filterView num e]) = kept.map (filterView num)
  aggregated : ∀ (num : Any → Nat), aggregateTree (kept.map (fun e => .block (num e) [])) = siblings (kept.map (fun e => .block (num e) []))
  preamble : ∀ (num : Any → Nat), insertPreamble (kept.map (fun e => .block (num e) [])) = (kept.map (fun e => .block (num e) [])).map .elem
  rendered : ∀ n, render L (n + 2) ⟨kept.map toEl, [], [], none⟩ cfg = .ok html

theorem page_append (u : Bool) (a b : List Block) : page u (a ++ b) = page u a ++ page u b := List.flatMap_append

theorem page_trimmed (u : Bool) (bs : List Block) : page u (trimmed bs) = page u bs := by
  unfold trimmed
  split
  · next h =>
    conv => rhs; rw [← List.dropLast_append_getLast? _ h]
    rw [page_append]
    show _ = _ ++ []
    rw [List.append_nil]
  · rfl

theorem mem_trimmed {bs : List Block} {b : Block} (h : b ∈ trimmed bs) : b ∈ bs := by
  unfold trimmed at h
  split at h
  · exact List.mem_of_mem_dropLast h
  · exact h

/-- **C60**: a document of plain prose, from the text to the page: each paragraph appears as it is written, in order, with the special characters
escaped and without the spaces at the ends of its lines, and nothing else appears. -/
theorem text_to_page {σ τ : Type} {env : Env} {S0 : Peg.Sem τ} {elem : τ → Option RawElem} {sects within : τ → Bool} (hE : C50.Reads env S0 elem sects within)
    (files : Nat) {ctx : Verif.Ctx} (hroot : ctx.sectEnabled = false) {S : Peg.Sem σ} {A : Peg.Code σ} (hS : C59.Code S) (hA : Actions.Obeys A) (s : σ)
    (R : Refine.Reader) {W : Walk.World} (hW : C59.Grammatical W) (c : Walk.Ctx) {L : Lib} (hL : L.tmpl.paragraph = Tmpl.Html5.paragraphTmpl)
    {cfg : Config} (hcfg : Article L cfg) {bs : List Block} (hg : Good (C59.alnum S) bs) (hu : ∀ l ∈ lines bs, C50.Untouched l)
    (hp : ∀ l ls, .para l ls ∈ bs → PlainText.Plain Subs.normal (text (l :: ls))) :
    Nonempty (Stages env files ctx S A s R W c L cfg (source bs) (page (getBoolD cfg.attrs "unicode" true) bs)) := by
  refine ⟨⟨joinLF (lines bs), (trimmed bs).map Block.element, (trimmed bs).map C59.content, paras (trimmed bs),
    C50.document_unchanged hE files ctx hroot (lines bs) hu, ?_, ?_, by simp, ?_, ?_, ?_, ?_, fun num => flat num _, fun num => no_preamble num _, ?_⟩⟩
  · rw [List.map_map]
    exact C59.paragraphs_preprocessed hS hA hg s
  · intro b hb n
    obtain ⟨x, _, rfl⟩ := List.mem_map.mp hb
    exact nothing_to_refine R n x
  · intro p hm
    rw [List.zip_map', List.mem_map] at hm
    obtain ⟨x, hx, rfl⟩ := hm
    exact C59.left_as_they_are hW hg (fun l ls h => by rw [text_eq]; exact hp l ls h) c x (mem_trimmed hx)
  · intro num notes
    rw [List.map_map]
    exact no_footnotes num notes (trimmed bs)
  · intro num e he
    rfl
  · intro num
    rw [List.flatMap_map]
    exact blanks_dropped num (trimmed bs)
  · intro n
    rw [← page_trimmed]
    exact page_of hL hcfg (fun l ls h => allOk_of hg l ls (mem_trimmed h)) n

/-! ### The hypotheses can be met -/

/-- Both sets of templates show paragraphs in this way. -/
theorem templates : (C51.lib Html.html).tmpl.paragraph = Tmpl.Html5.paragraphTmpl ∧ (C51.lib Html.xhtml).tmpl.paragraph = Tmpl.Html5.paragraphTmpl :=
  ⟨rfl, rfl⟩

/-- Two paragraphs, one of two lines with spaces at their ends, and blank lines. -/
def sample : List Block :=
  [.blank [], .para ⟨"If 1 < 2, été, R et D".toList, " \t".toList⟩ [⟨"end of it".toList, [' ']⟩], .blank " ".toList, .blank [],
   .para ⟨"2 x; a b.".toList, []⟩ [], .blank []]

theorem sample_good : Good (C59.alnum C59.sem) sample := by
  have ok : ∀ l : Line, (l.full.all (fun c => !Grammar.isEol c) && l.text.any (fun c => !C48.isSpace c) && l.trail.all Grammar.isBlank &&
      (l.text.getLast?.all (fun c => !Grammar.isBlank c))) = true → l.Ok := by
    intro l h
    simp only [Bool.and_eq_true] at h
    obtain ⟨⟨⟨h1, h2⟩, h3⟩, h4⟩ := h
    refine ⟨fun c hc => by simpa using List.all_eq_true.mp h1 c hc, ?_, fun c hc => List.all_eq_true.mp h3 c hc, fun c hc => ?_⟩
    · obtain ⟨c, hc, h⟩ := List.any_eq_true.mp h2
      exact ⟨c, hc, by simpa using h⟩
    · rw [hc] at h4; simpa using h4
  have op : ∀ (l : Line) (c : Char) (r : Text), l.full = c :: r → C59.alnum C59.sem c = true →
      (match r with | d :: _ => !(d == '.' || d == ')') | [] => true) = true →
      (¬ [':', ':'] <:+: l.full) → (∀ p ∈ C48.admonitions, ¬ p <+: l.full) → Opens (C59.alnum C59.sem) l := by
    intro l c r h1 h2 h3 h4 h5
    refine ⟨⟨c, r, h1, h2, fun d x _ hd hp => ?_⟩, h4, h5⟩
    obtain ⟨z, rfl⟩ := hp
    rcases hd with rfl | rfl <;> exact absurd (show false = true from h3) (by decide)
  have co : ∀ l : Line, (match l.full with | c :: _ => decide (c ∉ openers) | [] => true) = true → Continues l := by
    intro l h c r e
    rw [e] at h
    exact of_decide_eq_true h
  refine ⟨by decide, ok _ (by decide +kernel), ?_, ?_, trivial, by decide, by decide, ok _ (by decide +kernel), ?_, by simp, trivial, by decide, trivial⟩
  · exact op _ _ _ rfl (by decide) (by decide) (by decide +kernel) (by decide +kernel)
  · intro x hx
    simp only [List.mem_cons, List.not_mem_nil, or_false] at hx
    rcases hx with rfl
    exact ⟨ok _ (by decide +kernel), co _ (by decide +kernel)⟩
  · exact op _ _ _ rfl (by decide) (by decide) (by decide +kernel) (by decide +kernel)

theorem sample_lines : ∀ l ∈ lines sample, C50.Untouched l := by
  have h : (lines sample).all (fun l => l.all (fun c => !Grammar.isEol c) && decide (utf8Len l ≤ 65535) &&
    ["include::", "ifdef::", "ifndef::", "ifeval::[", "endif::"].all (fun k => !k.toList.isPrefixOf l)) = true := by decide +kernel
  exact fun l hl => C50.untouched_of (List.all_eq_true.mp h l hl)

theorem sample_plain : ∀ l ls, .para l ls ∈ sample → PlainText.Plain Subs.normal (text (l :: ls)) := by
  intro l ls h
  simp only [sample, List.mem_cons, List.not_mem_nil, or_false, Block.para.injEq, reduceCtorEq, false_or] at h
  rcases h with ⟨rfl, rfl⟩ | ⟨rfl, rfl⟩ <;> decide +kernel

/-- No attributes; the body only. -/
def plainCfg : Config := ⟨[], false, [], []⟩

theorem plainCfg_article (R : Html.Rules) : Article (C51.lib R) plainCfg :=
  ⟨by show "article".toList ≠ "manpage".toList; decide +kernel, rfl, rfl⟩

example (R : Refine.Reader) (c : Walk.Ctx) : Nonempty (Stages C50.rawEnv 0 (rootCtx [] []) C59.sem C59.acts () R C59.world c (C51.lib Html.html) plainCfg
    "\nIf 1 < 2, été, R et D \t\nend of it \n \n\n2 x; a b.\n\n".toList
    ("<div class=\"paragraph\">\n<p>If 1 &lt; 2, été, R et D\nend of it</p>\n</div>\n".toList ++
     "<div class=\"paragraph\">\n<p>2 x; a b.</p>\n</div>\n".toList)) := by
  have h := text_to_page C50.rawEnv_reads 0 (ctx := rootCtx [] []) rfl C59.sem_code C59.acts_obey () R C59.world_grammatical c templates.1 (plainCfg_article _)
    sample_good sample_lines sample_plain
  have e1 : source sample = "\nIf 1 < 2, été, R et D \t\nend of it \n \n\n2 x; a b.\n\n".toList := by decide +kernel
  have e2 : page (getBoolD plainCfg.attrs "unicode" true) sample = ("<div class=\"paragraph\">\n<p>If 1 &lt; 2, été, R et D\nend of it</p>\n</div>\n".toList ++
     "<div class=\"paragraph\">\n<p>2 x; a b.</p>\n</div>\n".toList) := by decide +kernel
  rw [e1, e2] at h
  exact h

end C60
end Verif
