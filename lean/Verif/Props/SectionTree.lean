import Verif.Props.ListRender

/-!
# C63, continued — Rendering of documents with sections and lists
-/
namespace Verif
namespace C63
open Sectioned
open Walk (Any)
open Composed (Block)
open Rend hiding Item bind_ok
open C62 (Fine bind_ok fine_counters)
open Prose (char)

section
variable {L : Lib} {u : Bool} {alnum : Char → Bool}

/-! ### The whole tree -/

/-- The items, after the blank lines are removed: blocks and titles as they are meant, with their identifiers. -/
def Neat (alnum : Char → Bool) (ys : List (Item × Text)) : Prop := ∀ y ∈ ys, (∀ b, y.1 = .block b → b.Ok alnum ∧ ∀ w, b ≠ .blank w) ∧ (∀ h, y.1 = .heading h → h.Ok) ∧ (∀ n ns, y.1 = .list n ns → Listed.Ok alnum (n :: ns)) ∧ Safe y.2

theorem tree_shows {R : Html.Rules} (hL : L.tmpl = Html.templatesOf R) : ∀ (m : Nat) (ys : List (Item × Text)), ys.length ≤ m → Neat alnum ys →
    ∃ N, ∀ n, N ≤ n → Writes (renderAll (renderElement L n) (tree ys)) u (html L.lower u ys)
  | _, [], _, _ => ⟨0, fun _ _ c _ _ => ⟨c.counters, by rw [tree, html]; rfl⟩⟩
  | m + 1, (.block b, id) :: ys, hm, hy => by
    obtain ⟨N2, h2⟩ := tree_shows hL m ys (by simpa using hm) (fun y h => hy y (List.mem_cons_of_mem _ h))
    obtain ⟨hb, hnb⟩ := (hy _ List.mem_cons_self).1 b rfl
    obtain ⟨N1, h1⟩ := C62.block_shows (u := u) hL hb hnb
    refine ⟨max N1 N2, fun n hn => ?_⟩
    rw [tree, html]
    exact writes_cons (fun c hc _ => h1 n (by omega) c hc) (h2 n (by omega))
  | m + 1, (.list x xs, id) :: ys, hm, hy => by
    obtain ⟨N2, h2⟩ := tree_shows hL m ys (by simpa using hm) (fun y h => hy y (List.mem_cons_of_mem _ h))
    obtain ⟨N1, h1⟩ := C64.list_shows (u := u) hL ((hy _ List.mem_cons_self).2.2.1 x xs rfl)
    refine ⟨max N1 N2, fun n hn => ?_⟩
    rw [tree, html]
    exact writes_cons (fun c hc _ => h1 n (by omega) c hc) (h2 n (by omega))
  | m + 1, (.heading h, id) :: ys, hm, hy => by
    have hm : ys.length ≤ m := by simpa using hm
    have hy' : Neat alnum ys := fun y h => hy y (List.mem_cons_of_mem _ h)
    obtain ⟨N1, h1⟩ := tree_shows hL m (ys.takeWhile (deeper h.level)) (Nat.le_trans (takeWhile_length _ _) hm) (fun y h => hy' y ((List.takeWhile_sublist _).mem h))
    obtain ⟨N2, h2⟩ := tree_shows hL m (ys.dropWhile (deeper h.level)) (Nat.le_trans (dropWhile_length _ _) hm) (fun y h => hy' y ((List.dropWhile_sublist _).mem h))
    refine ⟨max (N1 + 2) N2, fun n hn => ?_⟩
    obtain ⟨k, rfl⟩ := Nat.exists_eq_add_of_le' (show 2 ≤ n by omega)
    rw [tree, html]
    exact writes_cons (section_shows hL k ((hy _ List.mem_cons_self).2.1 h rfl) (hy _ List.mem_cons_self).2.2.2 (h1 (k + 1) (by omega))) (h2 (k + 2) (by omega))

/-! ### The page -/

theorem el_list (ns : List Listed.Node) : C62.el (C64.arranged ns) = .list (C62.kindAt (100 + C64.label (Listed.styleOf ns) - 100)) [] (C62.items (C64.arrangedItems ns)) := by
  show (if 100 + C64.label (Listed.styleOf ns) < 100 then _ else El.list _ _ _) = _
  rw [if_neg (by omega)]

/-- Sections are not numbered: nothing declares so. -/
theorem not_numbered : ∀ (m : Nat) (ys : List (Item × Text)), ys.length ≤ m → ∀ n pre, numberEls (tree ys) false n pre = (false, [])
  | _, [], _, _, _ => by rw [tree]; rfl
  | m + 1, (.block b, id) :: ys, hm, n, pre => by
    have ih := not_numbered m ys (by simpa using hm)
    have hb : numberEl (C62.el (C62.final b)) false n pre = (false, n, []) := by cases b <;> rfl
    rw [tree]
    show ((numberEls (tree ys) (numberEl (C62.el (C62.final b)) false n pre).1 (numberEl (C62.el (C62.final b)) false n pre).2.1 pre).1, _) = _
    rw [hb]
    show ((numberEls (tree ys) false n pre).1, (numberEls (tree ys) false n pre).2 ++ []) = _
    rw [ih]
    rfl
  | m + 1, (.list x xs, id) :: ys, hm, n, pre => by
    have ih := not_numbered m ys (by simpa using hm)
    have hb : numberEl (C62.el (C64.arranged (x :: xs))) false n pre = (false, n, []) := by rw [el_list]; rfl
    rw [tree]
    show ((numberEls (tree ys) (numberEl (C62.el (C64.arranged (x :: xs))) false n pre).1 (numberEl (C62.el (C64.arranged (x :: xs))) false n pre).2.1 pre).1, _) = _
    rw [hb]
    show ((numberEls (tree ys) false n pre).1, (numberEls (tree ys) false n pre).2 ++ []) = _
    rw [ih]
    rfl
  | m + 1, (.heading h, id) :: ys, hm, n, pre => by
    have hm : ys.length ≤ m := by simpa using hm
    have ih1 := not_numbered m (ys.takeWhile (deeper h.level)) (Nat.le_trans (takeWhile_length _ _) hm)
    have ih2 := not_numbered m (ys.dropWhile (deeper h.level)) (Nat.le_trans (dropWhile_length _ _) hm)
    rw [tree]
    have hs : numberEl (.sect h.level [("id", .str id)] [.str h.title] (tree (ys.takeWhile (deeper h.level)))) false n pre = (false, n, []) := by
      show ((numberEls (tree (ys.takeWhile (deeper h.level))) false 0 ".".toList).1, n, (numberEls (tree (ys.takeWhile (deeper h.level))) false 0 ".".toList).2) = _
      rw [ih1]
    show ((numberEls (tree (ys.dropWhile _)) (numberEl _ false n pre).1 (numberEl _ false n pre).2.1 pre).1, _ ++ (numberEl _ false n pre).2.2) = _
    rw [hs]
    show ((numberEls (tree (ys.dropWhile (deeper h.level))) false n pre).1, (numberEls (tree (ys.dropWhile (deeper h.level))) false n pre).2 ++ []) = _
    rw [ih2]
    rfl

/-- Paragraphs, blocks, sections and lists. -/
def Body (es : List El) : Prop := ∀ e ∈ es, (∃ a xs, e = .paragraph a xs) ∨ (∃ k a xs, e = .block k a xs) ∨ (∃ l a t xs, e = .sect l a t xs) ∨ ∃ k a xs, e = .list k a xs

theorem header_body {es : List El} (h : Body es) : header es = none := by
  cases es with
  | nil => rfl
  | cons e es => rcases h e List.mem_cons_self with ⟨a, xs, rfl⟩ | ⟨k, a, xs, rfl⟩ | ⟨l, a, t, xs, rfl⟩ | ⟨k, a, xs, rfl⟩ <;> rfl

theorem decls_body {es : List El} (h : Body es) (a : Attrs) : leadingDecls es a = a := by
  cases es with
  | nil => rfl
  | cons e es => rcases h e List.mem_cons_self with ⟨a, xs, rfl⟩ | ⟨k, a, xs, rfl⟩ | ⟨l, a, t, xs, rfl⟩ | ⟨k, a, xs, rfl⟩ <;> rfl

theorem body_body : ∀ {es : List El}, Body es → bodyElements es = es
  | [], _ => rfl
  | e :: es, h => by
    have ih := body_body (es := es) (fun x hx => h x (List.mem_cons_of_mem _ hx))
    rcases h e List.mem_cons_self with ⟨a, xs, rfl⟩ | ⟨k, a, xs, rfl⟩ | ⟨l, a, t, xs, rfl⟩ | ⟨k, a, xs, rfl⟩ <;> exact congrArg (_ :: ·) ih

theorem tree_body (ys : List (Item × Text)) (hy : Neat alnum ys) : ∀ m, ys.length ≤ m → Body (tree ys) := by
  intro m
  induction m generalizing ys with
  | zero =>
    intro h
    cases ys with
    | nil => rw [tree]; exact fun _ h => nomatch h
    | cons y ys => cases h
  | succ m ih =>
    intro hm
    match ys, hy, hm with
    | [], _, _ => rw [tree]; exact fun _ h => nomatch h
    | (.block b, id) :: ys, hy, hm =>
      have := ih ys (fun y h => hy y (List.mem_cons_of_mem _ h)) (by simpa using hm)
      rw [tree]
      intro e he
      rcases List.mem_cons.mp he with rfl | he
      · cases b with
        | blank w => exact absurd rfl (((hy _ List.mem_cons_self).1 _ rfl).2 w)
        | para l ls => exact .inl ⟨_, _, rfl⟩
        | verb k f ls => exact .inr (.inl ⟨_, _, _, rfl⟩)
        | comp k f bs => exact .inr (.inl ⟨_, _, _, rfl⟩)
      · exact this e he
    | (.list x xs, id) :: ys, hy, hm =>
      have := ih ys (fun y h => hy y (List.mem_cons_of_mem _ h)) (by simpa using hm)
      rw [tree]
      intro e he
      rcases List.mem_cons.mp he with rfl | he
      · exact .inr (.inr (.inr ⟨_, _, _, el_list _⟩))
      · exact this e he
    | (.heading h, id) :: ys, hy, hm =>
      have := ih (ys.dropWhile (deeper h.level)) (fun y h => hy y (List.mem_cons_of_mem _ ((List.dropWhile_sublist _).mem h)))
        (Nat.le_trans (dropWhile_length _ _) (by simpa using hm))
      rw [tree]
      intro e he
      rcases List.mem_cons.mp he with rfl | he
      · exact .inr (.inr (.inl ⟨_, _, _, _, rfl⟩))
      · exact this e he

mutual
/-- All entries of the table of contents, with those below them, have a text as title. -/
def Entry (refs : List (Text × AV)) : Rend.Toc → Prop
  | .entry id _ _ _ kids => (∃ t, refs.lookup id = some (.els [.str t])) ∧ Entries refs kids
def Entries (refs : List (Text × AV)) : List Rend.Toc → Prop
  | [] => True
  | e :: l => Entry refs e ∧ Entries refs l
end

mutual
theorem prerender_entry (n : Nat) {c : Rend.Ctx} : ∀ e : Rend.Toc, Entry c.refs e → ∃ e', prerenderEntry (renderElement L (n + 1)) e c = .ok (e', c)
  | .entry id l t num kids, h => by
    obtain ⟨⟨t, ht⟩, hk⟩ := (show (∃ t, c.refs.lookup id = some (.els [.str t])) ∧ Entries c.refs kids from h)
    obtain ⟨ks, hks⟩ := prerender_entries n kids hk
    refine ⟨.entry id l (Escape.renderString (getBoolD c.attrs "unicode" true) t ++ []) ((c.numbers.lookup id).getD []) ks, (bind_ok hks).trans ?_⟩
    show (match c.refs.lookup id with
      | some (.els l) => (_ : M Rend.Toc)
      | _ => _) c = _
    rw [ht]
    rfl
theorem prerender_entries (n : Nat) {c : Rend.Ctx} : ∀ l : List Rend.Toc, Entries c.refs l → ∃ l', prerenderSections (renderElement L (n + 1)) l c = .ok (l', c)
  | [], _ => ⟨[], rfl⟩
  | e :: l, h => by
    obtain ⟨h1, h2⟩ := (show Entry c.refs e ∧ Entries c.refs l from h)
    obtain ⟨e', he⟩ := prerender_entry n e h1
    obtain ⟨l', hl⟩ := prerender_entries n l h2
    exact ⟨e' :: l', (bind_ok he).trans ((bind_ok hl).trans rfl)⟩
end

theorem prerender (n : Nat) {c : Rend.Ctx} {toc : Option (Option (List Rend.Toc))} (h : ∀ l, toc = some (some l) → Entries c.refs l) :
    ∃ toc', prerenderToc (renderElement L (n + 1)) toc c = .ok (toc', c) := by
  match toc, h with
  | none, _ => exact ⟨none, rfl⟩
  | some none, _ => exact ⟨some none, rfl⟩
  | some (some l), h =>
    obtain ⟨l', hl⟩ := prerender_entries (L := L) n l (h l rfl)
    exact ⟨some (some l'), (bind_ok hl).trans rfl⟩

theorem place_unset {a : Attrs} (h : AMap.get a "toc" = none) (toc : Option (Option (List Rend.Toc))) (es : List El) : placeToc a toc es = .ok es := by
  unfold placeToc
  rw [h]

/-- The context in which a document without header is rendered. -/
def startCtx (cfg : Config) (refs : List (Text × AV)) : Rend.Ctx := ⟨defaultAttrs cfg, false, 0, [], refs, false, [], []⟩

theorem start_fine {cfg : Config} (hA : C60.Article L cfg) (refs : List (Text × AV)) : Fine (getBoolD cfg.attrs "unicode" true) (startCtx cfg refs) := by
  refine ⟨?_, ?_, rfl, rfl⟩
  · show getBoolD (defaultAttrs cfg) "unicode" true = _
    unfold getBoolD
    rw [C60.get_default cfg (by decide)]
  · have := hA.hardbreaks
    show hasOption (defaultAttrs cfg) "hardbreaks" = false
    unfold hasOption Rend.has at this ⊢
    rw [C60.get_default cfg (by decide), C60.get_default cfg (by decide)]
    exact this

/-- The page of a document without header, given its table of contents and what is made of its elements. -/
theorem page_with {cfg : Config} (hA : C60.Article L cfg) {es es' : List El} (hb : Body es) (hnum : ∀ n pre, numberEls es false n pre = (false, []))
    {refs : List (Text × AV)} {toc toc' : Option (Option (List Rend.Toc))} {n : Nat} {t : Text} (htoc' : prerenderToc (renderElement L (n + 1)) toc (startCtx cfg refs) = .ok (toc', startCtx cfg refs))
    (hplace : placeToc (defaultAttrs cfg) toc' es = .ok es')
    (h : ∃ k, renderAll (renderElement L (n + 1)) es' (startCtx cfg refs) = .ok (t, { startCtx cfg refs with counters := k })) : render L (n + 1) ⟨es, refs, [], toc⟩ cfg = .ok t := by
  have hd : getStrD L.sprint (defaultAttrs cfg) "doctype" "article".toList ≠ "manpage".toList := by
    have := hA.doctype
    unfold getStrD at this ⊢
    rw [C60.get_default cfg (by decide)]
    exact this
  have hhead : header (Doc.mk es refs [] toc).elements = none := header_body hb
  have hns : sectionNumbers es = [] := by
    unfold sectionNumbers
    rw [header_body hb]
    dsimp only
    rw [hnum]
  let c : Rend.Ctx := startCtx cfg refs
  have hstart : startContext ⟨es, refs, [], toc⟩ ⟨defaultAttrs cfg, false, 0, [], refs, false, [], []⟩ = c := by
    unfold startContext
    rw [hhead]
    show ({ attrs := leadingDecls es (defaultAttrs cfg), numbers := sectionNumbers es, .. } : Rend.Ctx) = _
    rw [decls_body hb, hns]
    rfl
  have hctx : newContext ⟨es, refs, [], toc⟩ cfg = .ok ⟨defaultAttrs cfg, false, 0, [], refs, false, [], []⟩ := by
    unfold newContext
    rw [hhead]
    rfl
  obtain ⟨k, hk⟩ := h
  have hbody : documentBody L (renderElement L (n + 1)) es toc' [] c = .ok (t, { c with counters := k }) := by
    unfold documentBody
    show M.bind (M.lift (placeToc (defaultAttrs cfg) toc' _)) _ c = _
    unfold M.bind
    rw [hplace]
    refine (bind_ok hk).trans ?_
    show Except.ok (t ++ [], _) = _
    rw [List.append_nil]
  have hsplit : ∀ pl, splitAndRender L (renderElement L (n + 1)) pl cfg.wrap ⟨es, refs, [], toc'⟩ c = .ok (([], t), { c with counters := k }) := by
    intro pl
    unfold splitAndRender
    show (if getStrD L.sprint (defaultAttrs cfg) "doctype" "article".toList = "manpage".toList then (_ : M (Text × Text)) else _) c = _
    rw [if_neg hd]
    show M.bind (documentHeader L _ (header es)) _ c = _
    unfold M.bind
    rw [header_body hb]
    show M.bind (documentBody L _ (bodyElements es) toc' []) _ c = _
    rw [body_body hb]
    exact (bind_ok hbody).trans rfl
  unfold render
  dsimp only
  rw [hctx]
  dsimp only
  rw [header_body hb, hstart]
  show (match renderParts L _ _ cfg.wrap ⟨es, refs, [], toc⟩ c with
    | .error e => Except.error e
    | .ok (parts, c) => renderPage L ⟨es, refs, [], toc⟩ cfg _ parts c) = _
  have hparts : ∀ pl, renderParts L (renderElement L (n + 1)) pl cfg.wrap ⟨es, refs, [], toc⟩ c = .ok (([], t, []), { c with counters := k }) := by
    intro pl
    unfold renderParts
    refine (bind_ok htoc').trans ?_
    refine (bind_ok (hsplit pl)).trans ?_
    show M.bind (documentRoles _ (header es)) _ _ = _
    rw [header_body hb]
    rfl
  rw [hparts]
  dsimp only
  unfold renderPage
  rw [hA.body]
  rfl

/-- The page of a document without header, given what is made of its elements. -/
theorem page_of {cfg : Config} (hA : C60.Article L cfg) (hT : AMap.get cfg.attrs "toc" = none) {es : List El} (hb : Body es) (hnum : ∀ n pre, numberEls es false n pre = (false, []))
    {refs : List (Text × AV)} {toc : Option (Option (List Rend.Toc))} (htoc : ∀ l, toc = some (some l) → Entries refs l) {n : Nat} {t : Text}
    (h : Writes (renderAll (renderElement L (n + 1)) es) (getBoolD cfg.attrs "unicode" true) t) : render L (n + 1) ⟨es, refs, [], toc⟩ cfg = .ok t := by
  have ht : AMap.get (defaultAttrs cfg) "toc" = none := by
    rw [C60.get_default cfg (by decide)]
    exact hT
  obtain ⟨toc', htoc'⟩ := prerender (L := L) (toc := toc) n (c := startCtx cfg refs) htoc
  exact page_with hA hb hnum htoc' (place_unset ht _ _) (h _ (start_fine hA refs) rfl)

end

end C63
end Verif
