import Verif.Spec.Referable
import Verif.Props.Ids
import Verif.Props.InlineRender
import Verif.Props.Rendering
/-! C74: every element with an identifier and a title can be referred to. -/
namespace Verif.C74
open Rend (AV El Attrs)
open Target (Node Entry Named own ownImage ownTerm reference all cells rows collect resolve section')
open Referable

/-! ### One element -/

theorem id_plain {sprint : AV → Text} {a : Attrs} (h : ∀ v, AMap.get a "id" = some v → ∃ t, v = .str t) :
    (AMap.get a "id" = none ∧ Rend.getStrD sprint a "id" [] = []) ∨ ∃ t, AMap.get a "id" = some (.str t) ∧ Rend.getStrD sprint a "id" [] = t := by
  unfold Rend.getStrD
  cases e : AMap.get a "id" with
  | none => exact .inl ⟨rfl, rfl⟩
  | some v => obtain ⟨t, rfl⟩ := h v e; exact .inr ⟨t, rfl, rfl⟩

/-- What is recorded for an identifier and a title. -/
theorem recorded {sprint : AV → Text} {a : Attrs} (h : Plain a) {title : Option AV} (ht : title ≠ some .nil) (refs : Named) :
    (match (generalizing := false) title with
      | some t => if Rend.getStrD sprint a "id" [] ≠ [] then (Rend.getStrD sprint a "id" [], t) :: refs else refs
      | none => refs) = (pair (AMap.get a "id") title).reverse ++ refs := by
  rcases id_plain (sprint := sprint) h with ⟨e, e'⟩ | ⟨t, e, e'⟩
  · rw [e, e']
    cases title with
    | none => rfl
    | some v => cases v <;> rfl
  · rw [e, e']
    cases title with
    | none => cases t <;> rfl
    | some v => cases v <;> first | exact absurd rfl ht | (cases t <;> rfl)

theorem pair_nil (id : Option AV) : pair id (some .nil) = [] := by
  unfold pair
  split <;> simp_all

theorem own_names {sprint : AV → Text} {a : Attrs} (h : Plain a) (refs : Named) :
    own sprint a refs = (pair (AMap.get a "id") (AMap.get a "title")).reverse ++ refs := by
  by_cases hn : AMap.get a "title" = some .nil
  · rw [hn, pair_nil]
    have ht : Target.titleOf a = none := by
      unfold Target.titleOf
      split
      · rfl
      · next hh => exact absurd hn hh
    unfold own
    dsimp only
    rw [ht]
    rfl
  · have ht : Target.titleOf a = AMap.get a "title" := by
      unfold Target.titleOf
      split
      · next e => exact absurd e hn
      · rfl
    rw [← recorded h hn (sprint := sprint), ← ht]
    rfl

theorem image_names {sprint : AV → Text} {a : Attrs} (h : Plain a) (ht : ∀ v, AMap.get a "title" = some v → v = .nil ∨ ∃ c t, v = .str (c :: t)) (refs : Named) :
    ownImage sprint a refs = (pair (AMap.get a "id") (AMap.get a "title")).reverse ++ refs := by
  by_cases hn : AMap.get a "title" = some .nil
  · rw [hn, pair_nil]
    have e : Rend.getStrD sprint a "title" [] = [] := by unfold Rend.getStrD; rw [hn]
    unfold ownImage
    dsimp only
    rw [e]
    exact if_neg fun hh => hh.2 rfl
  · rw [← recorded h hn (sprint := sprint)]
    unfold ownImage
    dsimp only
    have e : Rend.getStrD sprint a "title" [] = (match AMap.get a "title" with | some (.str t) => t | _ => []) := by
      unfold Rend.getStrD
      cases e : AMap.get a "title" with
      | none => rfl
      | some v =>
        rcases ht v e with rfl | ⟨c, t, rfl⟩
        · exact absurd e hn
        · rfl
    rw [e]
    cases e' : AMap.get a "title" with
    | none => exact if_neg fun hh => hh.2 rfl
    | some v =>
      rcases ht v e' with rfl | ⟨c, t, rfl⟩
      · exact absurd e' hn
      · dsimp only
        by_cases hid : Rend.getStrD sprint a "id" [] = []
        · rw [if_neg fun hh => hh.1 hid, if_neg fun hh => hh hid]
        · rw [if_pos ⟨hid, List.cons_ne_nil _ _⟩, if_pos hid]

theorem term_names {sprint : AV → Text} {t : List El} (h : ∀ loc b l, t = .link loc b :: l → ∀ v, AMap.get b "id" = some v → ∃ u, v = .str u) (refs : Named) :
    ownTerm sprint t refs = (match t with
     | .link _ b :: l => pair (AMap.get b "id") (some (.els l))
     | _ => []).reverse ++ refs := by
  unfold ownTerm
  split
  · next loc b l => exact recorded (h _ _ _ rfl) (title := some (.els l)) (fun hh => AV.noConfusion (Option.some.inj hh)) refs
  · next hn =>
    split
    · next loc b l => exact absurd rfl (hn _ _ _)
    · rfl

/-! ### All elements -/

theorem flat {α β : Type} (f : α → List β) (l k : List α) (r : List β) : ((l ++ k).flatMap f).reverse ++ r = (k.flatMap f).reverse ++ ((l.flatMap f).reverse ++ r) := by
  rw [List.flatMap_append, List.reverse_append, List.append_assoc]

mutual
theorem reference_names (sprint : AV → Text) : ∀ (e : Node) (refs : Named), (∀ x ∈ elements e, NodeOk x) →
    reference sprint e refs = ((elements e).flatMap names).reverse ++ refs
  | .paragraph a, refs, h => by
    have ha := h _ List.mem_cons_self
    show own sprint a refs = (pair _ _ ++ []).reverse ++ refs
    rw [List.append_nil]
    exact own_names ha refs
  | .image a, refs, h => by
    have ha := h _ List.mem_cons_self
    show ownImage sprint a refs = (pair _ _ ++ []).reverse ++ refs
    rw [List.append_nil]
    exact image_names ha.1 ha.2 refs
  | .block a es, refs, h => by
    have ha : Plain a := h _ List.mem_cons_self
    show all sprint es (own sprint a refs) = (pair _ _ ++ (elementsOf es).flatMap names).reverse ++ refs
    rw [all_names sprint es _ fun x hx => h x (List.mem_cons_of_mem _ hx), own_names ha, List.reverse_append, List.append_assoc]
    rfl
  | .list a es, refs, h => by
    have ha : Plain a := h _ List.mem_cons_self
    show all sprint es (own sprint a refs) = (pair _ _ ++ (elementsOf es).flatMap names).reverse ++ refs
    rw [all_names sprint es _ fun x hx => h x (List.mem_cons_of_mem _ hx), own_names ha, List.reverse_append, List.append_assoc]
    rfl
  | .item a es, refs, h => by
    have ha : Plain a := h _ List.mem_cons_self
    show all sprint es (own sprint a refs) = (pair _ _ ++ (elementsOf es).flatMap names).reverse ++ refs
    rw [all_names sprint es _ fun x hx => h x (List.mem_cons_of_mem _ hx), own_names ha, List.reverse_append, List.append_assoc]
    rfl
  | .labeled a t es, refs, h => by
    have ha : Plain a ∧ _ := h _ List.mem_cons_self
    show all sprint es (ownTerm sprint t (own sprint a refs)) = ((pair _ _ ++ _) ++ (elementsOf es).flatMap names).reverse ++ refs
    rw [all_names sprint es _ fun x hx => h x (List.mem_cons_of_mem _ hx), term_names ha.2, own_names ha.1, List.reverse_append, List.reverse_append,
      List.append_assoc, List.append_assoc]
    rfl
  | .table a hd rs f, refs, h => by
    have ha : Plain a := h _ List.mem_cons_self
    have hh : ∀ x ∈ ofRow hd, NodeOk x := fun x hx => h x (List.mem_cons_of_mem _ (List.mem_append_left _ (List.mem_append_left _ hx)))
    have hr : ∀ x ∈ ofRows rs, NodeOk x := fun x hx => h x (List.mem_cons_of_mem _ (List.mem_append_left _ (List.mem_append_right _ hx)))
    have hf : ∀ x ∈ ofRow f, NodeOk x := fun x hx => h x (List.mem_cons_of_mem _ (List.mem_append_right _ hx))
    show cells sprint f (rows sprint rs (cells sprint hd (own sprint a refs))) = (pair _ _ ++ (ofRow hd ++ ofRows rs ++ ofRow f).flatMap names).reverse ++ refs
    rw [cells_names sprint f _ hf, rows_names sprint rs _ hr, cells_names sprint hd _ hh, own_names ha, List.reverse_append, List.append_assoc, flat, List.flatMap_append,
      List.reverse_append, List.append_assoc]
    rfl
  | .other, refs, _ => rfl
theorem all_names (sprint : AV → Text) : ∀ (es : List Node) (refs : Named), (∀ x ∈ elementsOf es, NodeOk x) →
    all sprint es refs = ((elementsOf es).flatMap names).reverse ++ refs
  | [], refs, _ => rfl
  | e :: l, refs, h => by
    show all sprint l (reference sprint e refs) = ((elements e ++ elementsOf l).flatMap names).reverse ++ refs
    rw [flat, all_names sprint l _ fun x hx => h x (List.mem_append_right _ hx), reference_names sprint e _ fun x hx => h x (List.mem_append_left _ hx)]
theorem cells_names (sprint : AV → Text) : ∀ (es : List (List Node)) (refs : Named), (∀ x ∈ ofRow es, NodeOk x) →
    cells sprint es refs = ((ofRow es).flatMap names).reverse ++ refs
  | [], refs, _ => rfl
  | c :: l, refs, h => by
    show cells sprint l (all sprint c refs) = ((elementsOf c ++ ofRow l).flatMap names).reverse ++ refs
    rw [flat, cells_names sprint l _ fun x hx => h x (List.mem_append_right _ hx), all_names sprint c _ fun x hx => h x (List.mem_append_left _ hx)]
theorem rows_names (sprint : AV → Text) : ∀ (es : List (List (List Node))) (refs : Named), (∀ x ∈ ofRows es, NodeOk x) →
    rows sprint es refs = ((ofRows es).flatMap names).reverse ++ refs
  | [], refs, _ => rfl
  | r :: l, refs, h => by
    show rows sprint l (cells sprint r refs) = ((ofRow r ++ ofRows l).flatMap names).reverse ++ refs
    rw [flat, rows_names sprint l _ fun x hx => h x (List.mem_append_right _ hx), cells_names sprint r _ fun x hx => h x (List.mem_append_left _ hx)]
end

theorem section_names (id : Text) (title : Option (List El)) (refs : Named) :
    section' id title refs = (pair (some (.str id)) (title.map AV.els)).reverse ++ refs := by
  cases title with
  | none => cases id <;> rfl
  | some t => cases id <;> rfl

theorem collect_names (sprint : AV → Text) : ∀ (l : List Entry) (refs : Named), (∀ x ∈ l, Ok x) →
    (collect sprint l refs).2 = (documentNames (collect sprint l refs).1).reverse ++ refs
  | [], _, _ => rfl
  | .sect base title :: l, refs, h => by
    show (collect sprint l (section' (resolve refs base) title refs)).2 = (pair _ _ ++ documentNames (collect sprint l (section' (resolve refs base) title refs)).1).reverse ++ refs
    rw [collect_names sprint l _ fun x hx => h x (List.mem_cons_of_mem _ hx), section_names, List.reverse_append, List.append_assoc]
  | .node e :: l, refs, h => by
    show (collect sprint l (reference sprint e refs)).2 = ((elements e).flatMap names ++ documentNames (collect sprint l (reference sprint e refs)).1).reverse ++ refs
    rw [collect_names sprint l _ fun x hx => h x (List.mem_cons_of_mem _ hx), reference_names sprint e refs (h _ List.mem_cons_self), List.reverse_append, List.append_assoc]

/-! ### What references lead to -/

theorem lookup_reverse (id : Text) (title : AV) : ∀ (r : Named), r.lookup id = some title ↔ Leads r.reverse id title
  | [] => by
    constructor
    · intro h; cases h
    · rintro ⟨b, a, h, _⟩
      exact absurd (congrArg List.length h) (by simp)
  | (i, t) :: r => by
    rw [List.lookup_cons, List.reverse_cons]
    by_cases hi : id = i
    · subst hi
      rw [show (id == id) = true from beq_self_eq_true id]
      constructor
      · intro h
        cases h
        exact ⟨r.reverse, [], rfl, fun _ hp => nomatch hp⟩
      · rintro ⟨b, a, h, ha⟩
        rcases List.eq_nil_or_concat a with rfl | ⟨a', p, rfl⟩
        · have := List.append_inj' h rfl
          have e := (List.cons.inj this.2).1
          rw [(Prod.mk.inj e).2]
        · rw [List.concat_eq_append, ← List.cons_append, ← List.append_assoc] at h
          have := List.append_inj' h rfl
          have e := (List.cons.inj this.2).1
          exact absurd (by rw [← e]) (ha p (by simp))
    · rw [show (id == i) = false from beq_eq_false_iff_ne.mpr hi]
      show r.lookup id = some title ↔ _
      rw [lookup_reverse id title r]
      constructor
      · rintro ⟨b, a, h, ha⟩
        refine ⟨b, a ++ [(i, t)], by rw [h]; simp, fun p hp => ?_⟩
        rcases List.mem_append.mp hp with hp | hp
        · exact ha p hp
        · rw [List.mem_singleton.mp hp]; exact fun e => hi e.symm
      · rintro ⟨b, a, h, ha⟩
        rcases List.eq_nil_or_concat a with rfl | ⟨a', p, rfl⟩
        · have := List.append_inj' h rfl
          have e := (List.cons.inj this.2).1
          exact absurd (Prod.mk.inj e).1.symm hi
        · rw [List.concat_eq_append, ← List.cons_append, ← List.append_assoc] at h
          have := List.append_inj' h rfl
          exact ⟨b, a', this.1, fun q hq => ha q (by simp [hq])⟩

/-- A reference leads to the last element of the document, at any depth, that bears the identifier. -/
theorem leads (sprint : AV → Text) (doc : List Entry) (h : ∀ x ∈ doc, Ok x) (id : Text) (title : AV) :
    (collect sprint doc []).2.lookup id = some title ↔ Leads (documentNames (collect sprint doc []).1) id title := by
  rw [collect_names sprint doc [] h, List.append_nil, lookup_reverse, List.reverse_reverse]

/-- The name of the only element with an identifier is found, wherever that element is. -/
theorem only_one (sprint : AV → Text) (doc : List Entry) (h : ∀ x ∈ doc, Ok x) {id : Text} {title : AV}
    (hm : (id, title) ∈ documentNames (collect sprint doc []).1) (hu : ∀ p ∈ documentNames (collect sprint doc []).1, p.1 = id → p.2 = title) :
    (collect sprint doc []).2.lookup id = some title := by
  have key : ∀ ns : List (Text × AV), (id, title) ∈ ns → (∀ p ∈ ns, p.1 = id → p.2 = title) → ns.reverse.lookup id = some title := by
    intro ns h1 h2
    have hs : (ns.reverse.lookup id).isSome = true := by
      rw [List.lookup_isSome_iff]
      exact ⟨_, List.mem_reverse.mpr h1, beq_self_eq_true id⟩
    obtain ⟨t, ht⟩ := Option.isSome_iff_exists.mp hs
    obtain ⟨b, a, e, _⟩ := (lookup_reverse id t ns.reverse).mp ht
    rw [List.reverse_reverse] at e
    rw [ht, ← h2 (id, t) (by rw [e]; simp) rfl]
  rw [collect_names sprint doc [] h, List.append_nil]
  exact key _ hm hu

/-- If no element bears the identifier, there is nothing to lead to. -/
theorem none_found (sprint : AV → Text) (doc : List Entry) (h : ∀ x ∈ doc, Ok x) {id : Text}
    (hn : ∀ p ∈ documentNames (collect sprint doc []).1, p.1 ≠ id) : (collect sprint doc []).2.lookup id = none := by
  cases e : (collect sprint doc []).2.lookup id with
  | none => rfl
  | some t =>
    obtain ⟨b, a, e', _⟩ := (leads sprint doc h id t).mp e
    exact absurd rfl (hn (id, t) (by rw [e']; simp))

/-! ### Sections -/

/-- `ids` are the candidates for a section, in order: `base`, `base_2`, `base_3`, … -/
theorem resolve_spec (refs : Named) (base : Text) : ∃ k, 1 ≤ k ∧ resolve refs base = candidate base k ∧ (∀ p ∈ refs, p.1 ≠ resolve refs base) ∧
    ∀ j, 1 ≤ j → j < k → ∃ p ∈ refs, p.1 = candidate base j := by
  obtain ⟨id, h⟩ := C14.terminates (refs.map fun p => (p.1, RefTitle.block 0)) base
  have hr := h _ (Nat.le_refl _)
  rw [List.length_map] at hr
  obtain ⟨k, hk, e, hn, hj⟩ := C14.loop_spec _ _ _ _ _ hr
  have he : resolve refs base = id := by unfold resolve; rw [hr]; rfl
  have hkeys : (refs.map fun p => (p.1, RefTitle.block 0)).map Prod.fst = refs.map Prod.fst := by rw [List.map_map]; rfl
  refine ⟨k, hk, by rw [he, e], fun p hp hpe => ?_, fun j h1 h2 => ?_⟩
  · have : (Refs.get (refs.map fun p => (p.1, RefTitle.block 0)) id).isSome = true :=
      C14.mem_get_some _ _ (by rw [hkeys, ← he, ← hpe]; exact List.mem_map_of_mem hp)
    rw [hn] at this
    cases this
  · have := C14.get_some_mem _ _ (hj j h1 h2)
    rw [hkeys] at this
    obtain ⟨p, hp, e⟩ := List.mem_map.mp this
    exact ⟨p, hp, e⟩

theorem collect_append (sprint : AV → Text) : ∀ (l m : List Entry) (refs : Named),
    (collect sprint (l ++ m) refs).1 = (collect sprint l refs).1 ++ (collect sprint m (collect sprint l refs).2).1
  | [], _, _ => rfl
  | .sect base title :: l, m, refs => by
    show _ :: (collect sprint (l ++ m) (section' (resolve refs base) title refs)).1 = _
    rw [collect_append sprint l m]
    rfl
  | .node e :: l, m, refs => by
    show _ :: (collect sprint (l ++ m) (reference sprint e refs)).1 = _
    rw [collect_append sprint l m]
    rfl

/-- A section gets the first of `base`, `base_2`, `base_3`, … that no element above it bears, at any depth; the rest of the document does not matter for it. -/
theorem section_above (sprint : AV → Text) (above below : List Entry) (base : Text) (title : Option (List El)) (h : ∀ x ∈ above, Ok x) :
    ∃ k below', (collect sprint (above ++ .sect base title :: below) []).1 = (collect sprint above []).1 ++ .sect (candidate base k) title :: below' ∧ 1 ≤ k ∧
      (∀ p ∈ documentNames (collect sprint above []).1, p.1 ≠ candidate base k) ∧
      ∀ j, 1 ≤ j → j < k → ∃ p ∈ documentNames (collect sprint above []).1, p.1 = candidate base j := by
  have hm : ∀ p : Text × AV, p ∈ (collect sprint above []).2 ↔ p ∈ documentNames (collect sprint above []).1 := by
    intro p
    rw [collect_names sprint above [] h, List.append_nil, List.mem_reverse]
  obtain ⟨k, hk, e, hn, hj⟩ := resolve_spec (collect sprint above []).2 base
  refine ⟨k, (collect sprint below (section' (resolve (collect sprint above []).2 base) title (collect sprint above []).2)).1, ?_, hk, fun p hp => ?_, fun j h1 h2 => ?_⟩
  · rw [collect_append, ← e]; rfl
  · rw [← e]; exact hn p ((hm p).mpr hp)
  · obtain ⟨p, hp, hpe⟩ := hj j h1 h2
    exact ⟨p, (hm p).mp hp, hpe⟩

/-! ### What is shown -/

section
variable {L : Rend.Lib}

theorem link_text (hL : C65.Quotes L) (c : Rend.Ctx) (id t : Text) :
    Rend.exec L (·.internalCrossReference) [("Href", .str id), ("Label", .str t)] c = .ok ("<a href=\"#".toList ++ L.lower id ++ "\">".toList ++ t ++ "</a>".toList, c) :=
  C65.link_shows (v := ⟨true, L.lower, id', id'⟩) hL rfl id t
where id' (t : Text) : Text := t

theorem xref_shows (hL : C65.Quotes L) {c c' : Rend.Ctx} {id t : Text} (n : Nat)
    (h : ∀ pl, Rend.refLabel (Rend.renderElement L n) pl id (c.refs.lookup id) c = .ok (t, c')) :
    Rend.renderElement L (n + 1) (.xref (.str id) .nil) c = .ok ("<a href=\"#".toList ++ L.lower id ++ "\">".toList ++ t ++ "</a>".toList, c') := by
  have h2 : ∀ re pl, Rend.refLabel re pl id (c.refs.lookup id) c = .ok (t, c') →
      Rend.renderXref L re pl (.str id) .nil c = .ok ("<a href=\"#".toList ++ L.lower id ++ "\">".toList ++ t ++ "</a>".toList, c') := by
    intro re pl h
    unfold Rend.renderXref
    show Rend.M.bind (Rend.refLabel re pl id (c.refs.lookup id)) _ c = _
    unfold Rend.M.bind
    rw [h]
    exact link_text hL c' id t
  exact h2 _ _ (h _)

/-- A reference without text of its own, in a document with these elements, shows the title of the last element that bears the identifier. A title of text is shown as it is. -/
theorem shows_text (hL : C65.Quotes L) (doc : List Entry) (h : ∀ x ∈ doc, Ok x) {c : Rend.Ctx} (hc : c.refs = (collect L.sprint doc []).2) {id t : Text} (n : Nat)
    (hl : Leads (documentNames (collect L.sprint doc []).1) id (.str t)) :
    Rend.renderElement L (n + 1) (.xref (.str id) .nil) c = .ok ("<a href=\"#".toList ++ L.lower id ++ "\">".toList ++ t ++ "</a>".toList, c) :=
  xref_shows hL n fun pl => by rw [hc, (leads L.sprint doc h id _).mpr hl]; rfl

/-- If nothing bears the identifier, it is shown itself, in brackets. -/
theorem shows_unknown (hL : C65.Quotes L) (doc : List Entry) (h : ∀ x ∈ doc, Ok x) {c : Rend.Ctx} (hc : c.refs = (collect L.sprint doc []).2) {id : Text} (n : Nat)
    (hn : ∀ p ∈ documentNames (collect L.sprint doc []).1, p.1 ≠ id) :
    Rend.renderElement L (n + 1) (.xref (.str id) .nil) c = .ok ("<a href=\"#".toList ++ L.lower id ++ "\">".toList ++ ("[".toList ++ id ++ "]".toList) ++ "</a>".toList, c) :=
  xref_shows hL n fun pl => by rw [hc, none_found L.sprint doc h hn]; rfl

theorem label_all (re : El → Rend.M Text) (pl : Bool → El → Except Rend.Err Text) : ∀ (l : List El), (∀ e ∈ l, ∀ loc a, e ≠ .link loc a) → ∀ c, Rend.xrefLabel re pl l c = Rend.renderAll re l c
  | [], _, _ => rfl
  | e :: l, h, c => by
    have ih := label_all re pl l fun x hx => h x (List.mem_cons_of_mem _ hx)
    have he : Rend.xrefLabel re pl (e :: l) = Rend.M.bind (re e) fun t => Rend.M.bind (Rend.xrefLabel re pl l) fun u => Rend.M.pure (t ++ u) := by
      cases e <;> first | rfl | exact absurd rfl (h _ List.mem_cons_self _ _)
    rw [he]
    show _ = Rend.M.bind (re e) (fun t => Rend.M.bind (Rend.renderAll re l) fun u => Rend.M.pure (t ++ u)) c
    unfold Rend.M.bind
    cases re e c with
    | error x => rfl
    | ok r => dsimp only; rw [ih]

/-- A title with markup, without links, is shown as it is rendered elsewhere. -/
theorem shows_markup (hL : C65.Quotes L) (doc : List Entry) (h : ∀ x ∈ doc, Ok x) {c c' : Rend.Ctx} (hc : c.refs = (collect L.sprint doc []).2) {id t : Text} {title : List El} (n : Nat)
    (hl : Leads (documentNames (collect L.sprint doc []).1) id (.els title)) (hn : ∀ e ∈ title, ∀ loc a, e ≠ .link loc a)
    (ht : Rend.renderAll (Rend.renderElement L n) title c = .ok (t, c')) :
    Rend.renderElement L (n + 1) (.xref (.str id) .nil) c = .ok ("<a href=\"#".toList ++ L.lower id ++ "\">".toList ++ t ++ "</a>".toList, c') :=
  xref_shows hL n fun pl => by
    rw [hc, (leads L.sprint doc h id _).mpr hl]
    show Rend.xrefLabel _ _ title c = _
    rw [label_all _ _ title hn, ht]

end

/-! ### A document -/

/-- An identifier and a title. -/
def called (id title : String) : List (String × AV) := [("id", .str id.toList), ("title", .str title.toList)]

/-- A section; a list with a table in its second element, in whose cells there are a titled image and a titled paragraph; a labeled list that begins with an anchor; another section of the
same title; and a block that bears an identifier which was used before. -/
def sampleDoc : List Entry :=
  [.sect "_A".toList (some [.str "A".toList]),
   .node (.list [] [.item [] [.paragraph []],
     .item (called "second" "Item") [.table (called "t" "Table") [[.image (called "i" "Image")]] [[[.paragraph (called "p" "Cell")], [.other]]] []]]),
   .node (.list [] [.labeled [] [.link none [("id", .str "term".toList)], .str "Word".toList] [.paragraph [("id", .str "untitled".toList), ("title", .nil)]]]),
   .sect "_A".toList (some [.quoted .bold [] [.str "A".toList]]),
   .node (.block (called "p" "Block") [])]

theorem plain_called (id title : String) : Plain (called id title) :=
  fun v hv => ⟨id.toList, (Option.some.inj hv).symm⟩

theorem plain_nil : Plain [] := fun _ hv => (nomatch hv)

theorem sample_ok : ∀ x ∈ sampleDoc, Ok x := by
  intro x hx
  simp only [sampleDoc, List.mem_cons, List.not_mem_nil, or_false] at hx
  rcases hx with rfl | rfl | rfl | rfl | rfl
  · trivial
  · intro y hy
    simp only [elements, elementsOf, ofRow, ofRows, List.append_nil, List.cons_append, List.nil_append, List.mem_cons, List.not_mem_nil, or_false] at hy
    rcases hy with rfl | rfl | rfl | rfl | rfl | rfl | rfl | rfl
    · exact plain_nil
    · exact plain_nil
    · exact plain_nil
    · exact plain_called _ _
    · exact plain_called _ _
    · exact ⟨plain_called _ _, fun _ hv => .inr ⟨'I', "mage".toList, (Option.some.inj hv).symm⟩⟩
    · exact plain_called _ _
    · exact plain_nil
  · intro y hy
    simp only [elements, elementsOf, List.append_nil, List.mem_cons, List.not_mem_nil, or_false] at hy
    rcases hy with rfl | rfl | rfl
    · exact plain_nil
    · refine ⟨plain_nil, fun loc b l e v hv => ?_⟩
      obtain ⟨e1, _⟩ := List.cons.inj e
      obtain ⟨_, rfl⟩ := El.link.inj e1
      exact ⟨"term".toList, (Option.some.inj hv).symm⟩
    · exact fun v hv => ⟨"untitled".toList, (Option.some.inj hv).symm⟩
  · trivial
  · intro y hy
    rcases List.mem_singleton.mp hy with rfl
    exact plain_called _ _

/-- The names in it. -/
theorem sample_names (sprint : AV → Text) : documentNames (collect sprint sampleDoc []).1 =
    [("_A".toList, .els [.str "A".toList]), ("second".toList, .str "Item".toList), ("t".toList, .str "Table".toList), ("i".toList, .str "Image".toList),
     ("p".toList, .str "Cell".toList), ("term".toList, .els [.str "Word".toList]), ("_A_2".toList, .els [.quoted .bold [] [.str "A".toList]]), ("p".toList, .str "Block".toList)] := by
  rfl

/-- `<<p>>` shows the title of the block at the end, not the one of the paragraph in the table; `<<t>>` the one of the table in the list; `<<untitled>>` only the identifier. -/
theorem sample_shows (c : Rend.Ctx) (hc : c.refs = (collect (C51.lib Html.html).sprint sampleDoc []).2) :
    Rend.renderElement (C51.lib Html.html) 5 (.xref (.str "p".toList) .nil) c = .ok ("<a href=\"#p\">Block</a>".toList, c) ∧
    Rend.renderElement (C51.lib Html.html) 5 (.xref (.str "t".toList) .nil) c = .ok ("<a href=\"#t\">Table</a>".toList, c) ∧
    Rend.renderElement (C51.lib Html.html) 5 (.xref (.str "untitled".toList) .nil) c = .ok ("<a href=\"#untitled\">[untitled]</a>".toList, c) := by
  refine ⟨?_, ?_, ?_⟩
  · refine (shows_text C65.quotes_both.1 sampleDoc sample_ok hc 4 (t := "Block".toList) ?_).trans (by kernel_rfl)
    rw [sample_names]
    exact ⟨[_, _, _, _, _, _, _], [], rfl, fun _ hp => (nomatch hp)⟩
  · refine (shows_text C65.quotes_both.1 sampleDoc sample_ok hc 4 (t := "Table".toList) ?_).trans (by kernel_rfl)
    rw [sample_names]
    refine ⟨[_, _], _, rfl, fun q hq => ?_⟩
    simp only [List.mem_cons, List.not_mem_nil, or_false] at hq
    rcases hq with rfl | rfl | rfl | rfl | rfl <;> decide +kernel
  · refine (shows_unknown C65.quotes_both.1 sampleDoc sample_ok hc 4 ?_).trans (by kernel_rfl)
    rw [sample_names]
    intro q hq
    simp only [List.mem_cons, List.not_mem_nil, or_false] at hq
    rcases hq with rfl | rfl | rfl | rfl | rfl | rfl | rfl | rfl <;> decide +kernel

/-! ### Findings -/

/-- Finding (types.go:2052): the title of an image is read as a string. If it has markup, it is a list of elements, and what is recorded is the list as printed with `%v`: a list of addresses in
memory, which is what a reference to the image then shows. -/
theorem finding_image (sprint : AV → Text) (title : List El) (id : Text) (hid : id ≠ []) (ht : sprint (.els title) ≠ []) :
    (collect sprint [.node (.image [("id", .str id), ("title", .els title)])] []).2.lookup id = some (.str (sprint (.els title))) := by
  have e : (collect sprint [.node (.image [("id", .str id), ("title", .els title)])] []).2 = if id ≠ [] ∧ sprint (.els title) ≠ [] then [(id, AV.str (sprint (.els title)))] else [] := rfl
  rw [e, if_pos ⟨hid, ht⟩, List.lookup_cons, show (id == id) = true from beq_self_eq_true id]

/-- A section `== A`, and a paragraph in it with the identifier of the section and a title of its own: `[#_A]`, `.Note`, `text`. -/
def taken : List Entry := [.sect "_A".toList (some [.str "A".toList]), .node (.paragraph (called "_A" "Note"))]

/-- Finding (table_of_contents.go:46-63, called by sgml.go:79 for every document): the titles in the table of contents are looked up among the elements that can be referred to. If a paragraph after
a section bears its identifier and has a title, the whole conversion fails, even if no table of contents is shown. -/
theorem finding_taken :
    Rend.render (C51.lib Html.html) 10 ⟨[.sect 1 [("id", .str "_A".toList)] [.str "A".toList] [.paragraph (called "_A" "Note") [.str "text".toList]]],
      (collect (C51.lib Html.html).sprint taken []).2, [], some (some [.entry "_A".toList 1 [] [] []])⟩ ⟨[], false, [], []⟩ = .error .fail := by
  apply Rend.fails; decide +kernel

/-- Without the identifier on the paragraph, it does not. -/
theorem taken_without :
    Rend.render (C51.lib Html.html) 10 ⟨[.sect 1 [("id", .str "_A".toList)] [.str "A".toList] [.paragraph [("title", .str "Note".toList)] [.str "text".toList]]],
      (collect (C51.lib Html.html).sprint [.sect "_A".toList (some [.str "A".toList]), .node (.paragraph [("title", .str "Note".toList)])] []).2, [], some (some [.entry "_A".toList 1 [] [] []])⟩
      ⟨[], false, [], []⟩ = .ok ("<div class=\"sect1\">\n<h2 id=\"_a\">A</h2>\n<div class=\"sectionbody\">\n".toList ++
        "<div class=\"paragraph\">\n<div class=\"title\">Note</div>\n<p>text</p>\n</div>\n</div>\n</div>\n".toList) := by
  kernel_rfl

end Verif.C74
