import Verif.Props.ListArrange

/-!
# C64, continued — Lists in the other stages
-/
namespace Verif
namespace C64
open Listed
open Walk (Any)
open C62 (filterOf filtersOf footOf feet)

/-! ### Parsing the content of blocks -/

theorem refine_items {D : Refine.Reader} {n : Nat} : ∀ es : List Entry, Refine.refineAll (Refine.refine D (n + 2)) (es.map itemEl) = .done (es.map itemEl)
  | [] => rfl
  | e :: es => by
    have h : Refine.refine D (n + 2) (itemEl e) = .done (itemEl e) := by
      show (if D.lists (label e.mark.style) = true then _ else Refine.Out.done (itemEl e)) = _
      split <;> rfl
    rw [List.map_cons, Refine.refineAll, h, refine_items es]

/-- There are no blocks in these lists. -/
theorem refine_list (D : Refine.Reader) (es : List Entry) : ∃ N, ∀ n, N ≤ n → Refine.refine D n (listEl es) = .done (listEl es) := by
  refine ⟨3, fun n hn => ?_⟩
  obtain ⟨m, rfl⟩ := Nat.exists_eq_add_of_le' hn
  show (if D.lists _ = true then (match Refine.refineAll (Refine.refine D (m + 2)) (es.map itemEl) with
    | .done es => Refine.Out.done (Any.group Actions.listLabel [] es)
    | .error => .error
    | .more => .more) else Refine.Out.done (listEl es)) = _
  split
  · rw [refine_items]; rfl
  · rfl

/-! ### Substitutions -/

section
variable {W : Walk.World}

theorem substituted_group (c : Walk.Ctx) (opts : List Walk.Opt) (n : Nat) {es es' : List Any} (h : Walk.substAll W c (opts ++ [.entry .normalGroup]) es = .ok (es', c)) :
    Walk.substOne W c opts (.group n [] es) = .ok (.group n [] es', c) := by
  show (match Walk.substAttrs W c opts [] with
    | .error b => Except.error b
    | .ok a => match Walk.subsFor .other a with
      | .error b => Except.error b
      | .ok _ => match Walk.substAll W c (opts ++ [Walk.Opt.entry .normalGroup]) es with
        | .error b => Except.error b
        | .ok (es, c) => .ok (Any.group n a es, c)) = _
  rw [show Walk.substAttrs W c opts [] = .ok [] from rfl]
  dsimp only
  rw [h]
  rfl

theorem substituted_item (hW : C59.Grammatical W) (c : Walk.Ctx) (opts : List Walk.Opt) {e : Entry} (h : e.first.Ok) (hp : PlainText.Plain Subs.normal e.body) :
    Walk.substOne W c opts (itemEl e) = .ok (itemContent e, c) := by
  refine substituted_group c opts _ (C62.single ?_)
  have := C59.substituted hW c (opts ++ [.entry .normalGroup]) h (ls := e.more) (by rw [C60.text_eq]; exact hp)
  show Walk.substParagraph W c _ [] (Paragraphs.kept (e.first :: e.more)) = _
  rw [this]
  show Except.ok (Any.paragraph [] (PlainText.pieces true (C59.body (e.first :: e.more))), c) = _
  rw [C60.text_eq]
  rfl

theorem substituted_items (hW : C59.Grammatical W) (c : Walk.Ctx) (opts : List Walk.Opt) : ∀ {es : List Entry}, (∀ e ∈ es, e.first.Ok) → (∀ e ∈ es, PlainText.Plain Subs.normal e.body) →
    Walk.substAll W c opts (es.map itemEl) = .ok (es.map itemContent, c)
  | [], _, _ => rfl
  | e :: es, h, hp => by
    have h1 := substituted_item hW c opts (h e List.mem_cons_self) (hp e List.mem_cons_self)
    have h2 := substituted_items hW c opts (fun x hx => h x (List.mem_cons_of_mem _ hx)) (fun x hx => hp x (List.mem_cons_of_mem _ hx))
    rw [List.map_cons, Walk.substAll, h1]
    dsimp only
    rw [h2]
    rfl

theorem substituted_list (hW : C59.Grammatical W) (c : Walk.Ctx) (opts : List Walk.Opt) {alnum : Char → Bool} {ns : List Node} (h : Ok alnum ns) (hp : Plain ns) :
    Walk.substOne W c opts (listEl (entries ns)) = .ok (content ns, c) :=
  substituted_group c opts _ (substituted_items hW c _ (fun e he => (h.items e he).one) hp)

end

section
variable (num : Any → Nat)

/-! ### Footnotes -/

theorem item_footnotes (n : Foot.Notes) (e : Entry) : Foot.subst n (footOf num (itemContent e)) = (n, footOf num (itemContent e)) := by
  have h : ¬ label e.mark.style = 0 := by
    cases e.mark.style <;> simp [label, Actions.unorderedLabel, Actions.orderedLabel]
  have e1 : footOf num (itemContent e) = .item [footOf num (para e)] := by
    show (if label e.mark.style = 0 then _ else Foot.FNode.item _) = _
    rw [if_neg h]
    rfl
  rw [e1]
  show ((Foot.subInline n (feet num (PlainText.pieces true e.body))).1, Foot.FNode.item [Foot.FNode.para (Foot.subInline n (feet num (PlainText.pieces true e.body))).2]) = _
  rw [C62.feet_leaves num (C59.pieces_textual _ _)]
  rfl

theorem items_footnotes (n : Foot.Notes) : ∀ es : List Entry, Foot.substAll n (feet num (es.map itemContent)) = (n, feet num (es.map itemContent))
  | [] => rfl
  | e :: es => by
    have ih := items_footnotes n es
    show ((Foot.substAll (Foot.subst n (footOf num (itemContent e))).1 _).1, (Foot.subst n (footOf num (itemContent e))).2 :: (Foot.substAll (Foot.subst n (footOf num (itemContent e))).1 (feet num (es.map itemContent))).2) = _
    rw [item_footnotes, ih]
    rfl

/-- There are no footnotes. -/
theorem no_footnotes (n : Foot.Notes) (ns : List Node) : Foot.substAll n [footOf num (content ns)] = (n, [footOf num (content ns)]) := by
  show ((Foot.substAll n (feet num ((entries ns).map itemContent))).1, [Foot.FNode.items (Foot.substAll n (feet num ((entries ns).map itemContent))).2]) = _
  rw [items_footnotes]
  rfl

/-! ### The filter -/

theorem filterOut_fixed {e : Filter.FEl} (h1 : Filter.isNoise e = false) (h2 : Filter.isEmptyHeader e = false) (h3 : Filter.inside e = e) {es : List Filter.FEl} (h : Filter.filterOut es = es) :
    Filter.filterOut (e :: es) = e :: es := by
  rw [Filter.filterOut, h1, h3, h2, if_neg (by decide), if_neg (by decide), h]

theorem inside_para (e : Entry) : Filter.inside (filterOf num (para e)) = filterOf num (para e) := by
  show Filter.FEl.parent _ (Filter.filterOut (filtersOf num (PlainText.pieces true e.body))) = _
  rw [C62.filter_leaves num (C59.pieces_textual _ _)]
  rfl

theorem label_small (s : Style) (h : Known s) : label s < 100 := by
  cases s with
  | bullet k =>
    have h : k ≤ 5 := h
    simp only [label, Actions.unorderedLabel]
    omega
  | _ => decide

theorem filterOf_list (s : Style) (es : List Any) : filterOf num (.group (100 + label s) [] es) = .list (num (.group (100 + label s) [] [])) (filtersOf num es) := by
  show (if 100 + label s < 100 then _ else Filter.FEl.list _ _) = _
  rw [if_neg (by omega)]

mutual
theorem inside_item {alnum : Char → Bool} : ∀ nd : Node, (∀ e ∈ nd.entries, e.Ok alnum) → Filter.inside (filterOf num (arrangedItem nd)) = filterOf num (arrangedItem nd)
  | .node e ns, h => by
    have he : e.Ok alnum := h e List.mem_cons_self
    have ih := inside_items ns (fun x hx => h x (List.mem_cons_of_mem _ hx))
    have e1 : filterOf num (arrangedItem (.node e ns)) = .parent (num (.group (label e.mark.style) [] [])) (filterOf num (para e) ::
        filtersOf num (if ns.isEmpty then [] else [.group (100 + label (styleOf ns)) [] (arrangedItems ns)])) := by
      show (if label e.mark.style < 100 then Filter.FEl.parent _ _ else _) = _
      rw [if_pos (label_small _ (known_mark he.mark))]
      rfl
    have h2 : Filter.filterOut (filtersOf num (if ns.isEmpty then [] else [.group (100 + label (styleOf ns)) [] (arrangedItems ns)])) =
        filtersOf num (if ns.isEmpty then [] else [.group (100 + label (styleOf ns)) [] (arrangedItems ns)]) := by
      cases ns with
      | nil => exact Filter.filterOut.eq_1
      | cons nd ns =>
        show Filter.filterOut [filterOf num (.group (100 + label (styleOf (nd :: ns))) [] (arrangedItems (nd :: ns)))] =
          [filterOf num (.group (100 + label (styleOf (nd :: ns))) [] (arrangedItems (nd :: ns)))]
        rw [filterOf_list]
        refine filterOut_fixed rfl rfl ?_ Filter.filterOut.eq_1
        rw [Filter.inside, ih]
    rw [e1, Filter.inside, filterOut_fixed rfl rfl (inside_para num e) h2]
theorem inside_items {alnum : Char → Bool} : ∀ ns : List Node, (∀ e ∈ entries ns, e.Ok alnum) → Filter.insideAll (filtersOf num (arrangedItems ns)) = filtersOf num (arrangedItems ns)
  | [], _ => by rw [arrangedItems, filtersOf, Filter.insideAll]
  | nd :: ns, h => by
    have h1 := inside_item nd (fun e he => h e (List.mem_append_left _ he))
    have h2 := inside_items ns (fun e he => h e (List.mem_append_right _ he))
    show Filter.insideAll (filterOf num (arrangedItem nd) :: filtersOf num (arrangedItems ns)) = filterOf num (arrangedItem nd) :: filtersOf num (arrangedItems ns)
    rw [Filter.insideAll, h1, h2]
end

/-- Nothing is filtered out of a list. -/
theorem filter_list {alnum : Char → Bool} {ns : List Node} (h : Ok alnum ns) : Filter.filterOut [filterOf num (arranged ns)] = [filterOf num (arranged ns)] := by
  unfold arranged
  rw [filterOf_list]
  refine filterOut_fixed rfl rfl ?_ Filter.filterOut.eq_1
  rw [Filter.inside, inside_items num ns h.items]

end

end C64
end Verif
