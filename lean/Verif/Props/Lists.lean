import Verif.Model.Lists
import Verif.Proofs.Forest
/-!
C19: arranging the list elements of a fragment keeps every element and attached block, in order, in lists that
contain only elements of one kind and style, and which nest in a predictable way.
-/
namespace Verif.C19
open Verif (Forest)
open Verif.Forest
open Verif.Lists

/-! ## Specification -/

/-- The nodes of a forest in document order, each with its depth. -/
def outline {α : Type} : Nat → Forest α → List (α × Nat)
  | _, .nil => []
  | d, .cons a k r => (a, d) :: (outline (d + 1) k ++ outline d r)

/-- The currently open list elements, outermost first: style (that of their list) and number. -/
abbrev Path := List (Style × Nat)

/-- The style of an element that opens a list below the innermost open element `p`: an unordered element directly
below another unordered one takes the bullet that follows, everything else stays. -/
def nested (p : Option (Style × Nat)) (s : Style) : Style :=
  match p, s with
  | some (.unordered o, _), .unordered _ => .unordered o.next
  | _, s => s

/-- The open elements without the last one of style `s` and all those inside of it; `none` if there is no element of
style `s`. -/
def upTo (s : Style) : Path → Option Path
  | [] => none
  | p :: ps =>
    match upTo s ps with
    | some q => some (p :: q)
    | none => if p.1 = s then some [] else none

/-- Where the next element goes: the nodes added (with their depth: a list element of the `i`-th open list has depth
`2 * i + 1`), and the open elements afterwards. -/
def place (path : Path) : LEl → Option (List (LNode × Nat) × Path)
  | .item s n =>
    match upTo s path with
    | some q => some ([(.item s n, 2 * q.length + 1)], q ++ [(s, n)])
    | none =>
      let s' := nested path.getLast? s
      some ([(.list s', 2 * path.length), (.item s' n, 2 * path.length + 1)], path ++ [(s', n)])
  | .cont o e =>
    if o < path.length then
      some ([(.blk e, 2 * (path.length - o))], path.take (path.length - o))
    else none
  | .other _ => none

/-- All elements, one after the other. -/
def places (path : Path) : List LEl → Option (List (LNode × Nat))
  | [] => some []
  | e :: es =>
    match place path e with
    | none => none
    | some (added, path') => (places path' es).map (added ++ ·)

/-- What a reader sees of an input element. -/
def given : LEl → Option (Nat ⊕ BEl)
  | .item _ n => some (.inl n)
  | .cont _ e => some (.inr e)
  | .other _ => none

/-- What a reader sees of a node of the arranged list. -/
def shown : LNode → Option (Nat ⊕ BEl)
  | .list _ => none
  | .item _ n => some (.inl n)
  | .blk e => some (.inr e)

/-- Which parent a node may have: list elements sit in a list of their own kind and style, lists and blocks in a
list element; only a list may have no parent. -/
def goodParent : LNode → Option LNode → Prop
  | .list _, none => True
  | .list _, some (.item _ _) => True
  | .item s _, some (.list s') => s = s'
  | .blk _, some (.item _ _) => True
  | _, _ => False

/-- The kind of a list element, without its style. -/
def kind : Style → Nat
  | .callout => 0
  | .ordered _ => 1
  | .unordered _ => 2
  | .labeled _ => 3

/-! ## Forests -/

theorem outline_snoc {α : Type} (a : α) : ∀ (f : Forest α) (d : Nat), outline d (snoc a f) = outline d f ++ [(a, d)]
  | nil, _ => rfl
  | cons b k r, d => by simp [snoc, outline, outline_snoc a r d]

theorem outline_insertAt {α : Type} (a : α) : ∀ (f : Forest α) (i d : Nat), i ≤ (spine f).length →
    outline d (insertAt i a f) = outline d f ++ [(a, d + i)]
  | f, 0, d, _ => by simp only [insertAt]; exact outline_snoc a f d
  | nil, i + 1, d, h => absurd h (by simp [spine])
  | cons b k nil, i + 1, d, h => by
    have hd : i ≤ (spine k).length := by simpa [spine] using h
    simp only [insertAt, outline, List.append_nil]
    rw [outline_insertAt a k i (d + 1) hd]
    simp; omega
  | cons b k (cons c k' r), i + 1, d, h => by
    have := outline_insertAt a (cons c k' r) (i + 1) d (by simpa [spine] using h)
    simp only [insertAt] at this ⊢
    rw [outline, this]
    simp [outline]

theorem outline_ge {α : Type} : ∀ (f : Forest α) (d : Nat) (x : α × Nat), x ∈ outline d f → d ≤ x.2
  | nil, _, _, h => absurd h (by simp [outline])
  | cons b k r, d, x, h => by
    simp only [outline, List.mem_cons, List.mem_append] at h
    rcases h with h | h | h
    · subst h; exact Nat.le_refl _
    · exact Nat.le_of_succ_le (outline_ge k (d + 1) x h)
    · exact outline_ge r d x h

theorem split_unique {β : Type} (p : β → Bool) : ∀ (a a' b b' : List β), (∀ x ∈ a, p x = true) → (∀ x ∈ a', p x = true) →
    (∀ x ∈ b.head?, p x = false) → (∀ x ∈ b'.head?, p x = false) → a ++ b = a' ++ b' → a = a' ∧ b = b'
  | [], [], b, b', _, _, _, _, e => ⟨rfl, e⟩
  | [], y :: a', b, b', _, ha', hb, _, e => by
    simp only [List.nil_append, List.cons_append] at e
    subst e
    have := hb y (by simp)
    have := ha' y (by simp)
    simp_all
  | y :: a, [], b, b', ha, _, _, hb', e => by
    simp only [List.nil_append, List.cons_append] at e
    subst e
    have := hb' y (by simp)
    have := ha y (by simp)
    simp_all
  | y :: a, z :: a', b, b', ha, ha', hb, hb', e => by
    simp only [List.cons_append, List.cons.injEq] at e
    obtain ⟨e1, e2⟩ := split_unique p a a' b b' (fun x hx => ha x (by simp [hx])) (fun x hx => ha' x (by simp [hx])) hb hb' e.2
    rw [e.1, e1, e2]; exact ⟨rfl, rfl⟩

theorem outline_head {α : Type} (f : Forest α) (d : Nat) : ∀ x ∈ (outline d f).head?, x.2 = d := by
  cases f with
  | nil => intro x hx; simp [outline] at hx
  | cons a k r => intro x hx; simp [outline] at hx; rw [← hx]

/-- The outline determines the forest: nothing about the nesting is lost in it. -/
theorem outline_inj {α : Type} : ∀ (f g : Forest α) (d : Nat), outline d f = outline d g → f = g
  | nil, nil, _, _ => rfl
  | nil, cons _ _ _, _, h => by simp [outline] at h
  | cons _ _ _, nil, _, h => by simp [outline] at h
  | cons a k r, cons b k' r', d, h => by
    simp only [outline, List.cons.injEq, Prod.mk.injEq, and_true] at h
    obtain ⟨h1, h2⟩ := split_unique (fun x : α × Nat => decide (d < x.2)) _ _ _ _
      (fun x hx => decide_eq_true (outline_ge k (d + 1) x hx)) (fun x hx => decide_eq_true (outline_ge k' (d + 1) x hx))
      (fun x hx => by simp [outline_head r d x hx]) (fun x hx => by simp [outline_head r' d x hx]) h.2
    rw [h.1, outline_inj k k' (d + 1) h1, outline_inj r r' d h2]

theorem outline_fst {α : Type} : ∀ (f : Forest α) (d : Nat), (outline d f).map Prod.fst = flatten f
  | nil, _ => rfl
  | cons a k r, d => by simp [outline, flatten, outline_fst k, outline_fst r]

/-! ## The arrangement -/

/-- The nodes of the open path. -/
def nodes (path : Path) : List LNode := path.flatMap (fun p => [.list p.1, .item p.1 p.2])

theorem nodes_length : ∀ (path : Path), (nodes path).length = 2 * path.length
  | [] => rfl
  | p :: ps => by have := nodes_length ps; simp [nodes] at this ⊢; omega

theorem nodes_append (a b : Path) : nodes (a ++ b) = nodes a ++ nodes b := by simp [nodes]

theorem nodes_take (path : Path) (k : Nat) : (nodes path).take (2 * k) = nodes (path.take k) := by
  have h : nodes path = nodes (path.take k) ++ nodes (path.drop k) := by rw [← nodes_append, List.take_append_drop]
  by_cases hk : k ≤ path.length
  · have : (nodes (path.take k)).length = 2 * k := by rw [nodes_length, List.length_take]; omega
    rw [h, ← this, List.take_left]
  · rw [List.take_of_length_le (by rw [nodes_length]; omega), List.take_of_length_le (by omega)]

/-- The relation between the state of the code and the open path. -/
structure Rel (st : ArrSt) (path : Path) : Prop where
  stack : st.stack = path.map (fun p => ⟨p.1, p.1⟩)
  spine : nodes path <+: spine st.tree

theorem lastMatch_none (s : Style) : ∀ (path : Path), upTo s path = none →
    lastMatch s (path.map (fun p => (⟨p.1, p.1⟩ : Entry))) = none
  | [], _ => rfl
  | p :: ps, h => by
    simp only [upTo] at h
    split at h
    · simp at h
    · rename_i h'
      have ih := lastMatch_none s ps h'
      split at h
      · simp at h
      · rename_i hp
        simp only [List.map_cons, lastMatch, ih]
        rw [if_neg hp]

theorem lastMatch_some (s : Style) : ∀ (path q : Path), upTo s path = some q →
    lastMatch s (path.map (fun p => (⟨p.1, p.1⟩ : Entry))) = some q.length ∧ ∃ n rest, path = q ++ (s, n) :: rest
  | [], q, h => by simp [upTo] at h
  | p :: ps, q, h => by
    simp only [upTo] at h
    split at h
    · rename_i q' h'
      obtain ⟨ih, n, rest, e⟩ := lastMatch_some s ps q' h'
      cases h
      refine ⟨?_, n, rest, by rw [e]; rfl⟩
      simp only [List.map_cons, lastMatch, ih, List.length_cons]
    · rename_i h'
      split at h
      · rename_i hp
        cases h
        refine ⟨?_, p.2, ps, by rw [← hp]; rfl⟩
        simp only [List.map_cons, lastMatch, lastMatch_none s ps h', List.length_nil]
        rw [if_pos hp]
      · simp at h

theorem adjust_eq (path : Path) (s : Style) :
    adjust ((path.map (fun p => (⟨p.1, p.1⟩ : Entry))).getLast?) s = nested path.getLast? s := by
  rw [List.getLast?_map]
  cases path.getLast? with
  | none => cases s <;> rfl
  | some p =>
    obtain ⟨t, n⟩ := p
    cases s <;> cases t <;> rfl

theorem prefix_take {α : Type} {a b : List α} (h : a <+: b) (k : Nat) (hk : k ≤ a.length) : b.take k = a.take k := by
  obtain ⟨c, rfl⟩ := h
  rw [List.take_append_of_le_length hk]

/-- One element: the code adds exactly the nodes that the specification says, at that depth. -/
theorem step_spec (st : ArrSt) (path : Path) (h : Rel st path) (el : LEl) :
    match place path el with
    | none => step st el = none
    | some (added, path') => ∃ st', step st el = some st' ∧ Rel st' path' ∧ outline 0 st'.tree = outline 0 st.tree ++ added := by
  obtain ⟨hstack, hspine⟩ := h
  have hlen : 2 * path.length ≤ (Forest.spine st.tree).length := by
    rw [← nodes_length]; exact hspine.length_le
  cases el with
  | other n => rfl
  | cont o e =>
    simp only [place]
    have htake : st.stack.take (st.stack.length - o) = (path.take (path.length - o)).map (fun p => (⟨p.1, p.1⟩ : Entry)) := by
      rw [hstack, List.length_map, List.map_take]
    by_cases ho : o < path.length
    · rw [if_pos ho]
      have hpl : (path.take (path.length - o)).length = path.length - o := by rw [List.length_take]; omega
      have hne : st.stack.take (st.stack.length - o) ≠ [] := by
        rw [htake]; intro hc
        have := congrArg List.length hc
        simp at this; omega
      refine ⟨⟨st.tree.insertAt (2 * (path.length - o)) (.blk e), st.stack.take (st.stack.length - o)⟩, ?_, ⟨htake, ?_⟩, ?_⟩
      · have hl : (st.stack.take (st.stack.length - o)).length = path.length - o := by rw [htake, List.length_map, hpl]
        show (if st.stack.take (st.stack.length - o) = [] then none else
          some (⟨st.tree.insertAt (2 * (st.stack.take (st.stack.length - o)).length) (.blk e), st.stack.take (st.stack.length - o)⟩ : ArrSt)) = _
        rw [if_neg hne, hl]
      · show nodes (path.take (path.length - o)) <+: Forest.spine (st.tree.insertAt (2 * (path.length - o)) (.blk e))
        rw [spine_insertAt _ _ _ (by omega), prefix_take hspine _ (by rw [nodes_length]; omega), nodes_take]
        exact List.prefix_append _ _
      · show outline 0 (st.tree.insertAt (2 * (path.length - o)) (.blk e)) = _
        rw [outline_insertAt _ _ _ _ (by omega)]
        simp
    · rw [if_neg ho]
      show (if st.stack.take (st.stack.length - o) = [] then none else _) = none
      rw [if_pos (by rw [htake]; have : path.length - o = 0 := by omega
                     rw [this]; rfl)]
  | item s n =>
    simp only [place]
    cases hu : upTo s path with
    | some q =>
      obtain ⟨hm, m, rest, hp⟩ := lastMatch_some s path q hu
      have hq : q.length < path.length := by rw [hp]; simp
      simp only
      refine ⟨⟨st.tree.insertAt (2 * q.length + 1) (.item s n), (st.stack.take (q.length + 1)).modify q.length (fun e => { e with last := s })⟩, ?_, ⟨?_, ?_⟩, ?_⟩
      · simp only [step]
        rw [hstack, hm]
      · show (st.stack.take (q.length + 1)).modify q.length (fun e => { e with last := s }) = _
        rw [hstack, hp]
        have : ((q ++ (s, m) :: rest).map (fun p => (⟨p.1, p.1⟩ : Entry))).take (q.length + 1) = q.map (fun p => (⟨p.1, p.1⟩ : Entry)) ++ [⟨s, s⟩] := by
          rw [← List.map_take]
          have : (q ++ (s, m) :: rest).take (q.length + 1) = q ++ [(s, m)] := by
            rw [List.take_append, List.take_of_length_le (by omega)]; simp
          rw [this]; simp
        rw [this, List.modify_eq_take_cons_drop (by simp)]
        simp
      · show nodes (q ++ [(s, n)]) <+: Forest.spine (st.tree.insertAt (2 * q.length + 1) (.item s n))
        rw [spine_insertAt _ _ _ (by omega), prefix_take hspine _ (by rw [nodes_length]; omega)]
        have : (nodes path).take (2 * q.length + 1) = nodes q ++ [.list s] := by
          rw [hp, nodes_append, List.take_append, nodes_length, List.take_of_length_le (by rw [nodes_length]; omega)]
          have : 2 * q.length + 1 - 2 * q.length = 1 := by omega
          rw [this]; rfl
        rw [this, nodes_append]
        simp [nodes]
      · show outline 0 (st.tree.insertAt (2 * q.length + 1) (.item s n)) = _
        rw [outline_insertAt _ _ _ _ (by omega)]
        simp
    | none =>
      have hm := lastMatch_none s path hu
      simp only
      have hlenS : st.stack.length = path.length := by rw [hstack, List.length_map]
      have hadj : adjust st.stack.getLast? s = nested path.getLast? s := by rw [hstack, adjust_eq]
      have hsp1 : Forest.spine (st.tree.insertAt (2 * path.length) (.list (nested path.getLast? s))) = nodes path ++ [.list (nested path.getLast? s)] := by
        rw [spine_insertAt _ _ _ hlen, prefix_take hspine _ (by rw [nodes_length]; omega), List.take_of_length_le (by rw [nodes_length]; omega)]
      have hl1 : 2 * path.length + 1 ≤ (Forest.spine (st.tree.insertAt (2 * path.length) (.list (nested path.getLast? s)))).length := by
        rw [hsp1]; simp [nodes_length]
      refine ⟨⟨(st.tree.insertAt (2 * path.length) (.list (nested path.getLast? s))).insertAt (2 * path.length + 1) (.item (nested path.getLast? s) n),
        st.stack ++ [⟨nested path.getLast? s, nested path.getLast? s⟩]⟩, ?_, ⟨?_, ?_⟩, ?_⟩
      · have hm' : lastMatch s st.stack = none := by rw [hstack]; exact hm
        simp only [step]
        rw [hm']
        simp only
        rw [hadj, hlenS]
      · show st.stack ++ [⟨nested path.getLast? s, nested path.getLast? s⟩] = _
        rw [hstack]; simp
      · show nodes (path ++ [(nested path.getLast? s, n)]) <+: Forest.spine ((st.tree.insertAt (2 * path.length) (.list (nested path.getLast? s))).insertAt (2 * path.length + 1) (.item (nested path.getLast? s) n))
        rw [spine_insertAt _ _ _ hl1, hsp1, List.take_of_length_le (by simp [nodes_length]), nodes_append]
        simp [nodes]
      · show outline 0 ((st.tree.insertAt (2 * path.length) (.list (nested path.getLast? s))).insertAt (2 * path.length + 1) (.item (nested path.getLast? s) n)) = _
        rw [outline_insertAt _ _ _ _ hl1, outline_insertAt _ _ _ _ hlen]
        simp

theorem run_spec : ∀ (es : List LEl) (st : ArrSt) (path : Path), Rel st path →
    (run st es).map (fun st' => outline 0 st'.tree) = (places path es).map (outline 0 st.tree ++ ·)
  | [], st, path, _ => by simp [run, places]
  | e :: es, st, path, h => by
    have := step_spec st path h e
    revert this
    simp only [run, places]
    cases hp : place path e with
    | none => intro hs; rw [hs]; rfl
    | some r =>
      obtain ⟨added, path'⟩ := r
      rintro ⟨st', hs, hr, ho⟩
      rw [hs]
      simp only
      rw [run_spec es st' path' hr, ho]
      cases places path' es <;> simp

/-- C19, placement: arranging succeeds exactly when the specification can place every element, and the outline of the
list tree (which determines the tree, `outline_inj`) is the one specified. -/
theorem arranged (es : List LEl) : (arrange es).map (outline 0) = places [] es := by
  have h := run_spec es ⟨.nil, []⟩ [] ⟨rfl, List.nil_prefix⟩
  have e : (fun l : List (LNode × Nat) => outline 0 (⟨.nil, []⟩ : ArrSt).tree ++ l) = fun l => l := by funext l; rfl
  rw [e, Option.map_id'] at h
  rw [← h, arrange, Option.map_map]; rfl

/-! ## Order and content -/

theorem places_shown : ∀ (es : List LEl) (path : Path) (l : List (LNode × Nat)), places path es = some l →
    l.filterMap (fun x => shown x.1) = es.filterMap given
  | [], _, l, h => by simp [places] at h; subst h; rfl
  | e :: es, path, l, h => by
    simp only [places] at h
    cases hp : place path e with
    | none => rw [hp] at h; simp at h
    | some r =>
      obtain ⟨added, path'⟩ := r
      rw [hp] at h
      simp only at h
      cases hq : places path' es with
      | none => rw [hq] at h; simp at h
      | some l' =>
        rw [hq] at h
        simp only [Option.map_some, Option.some.injEq] at h
        subst h
        rw [List.filterMap_append, places_shown es path' l' hq]
        cases e with
        | other n => simp [place] at hp
        | cont o b =>
          simp only [place] at hp
          split at hp
          · cases hp; simp [shown, given]
          · simp at hp
        | item s n =>
          simp only [place] at hp
          split at hp
          · cases hp; simp [shown, given]
          · cases hp; simp [shown, given]

/-- C19, content: the list elements and attached blocks of the arranged list are, in document order, those of the input:
none is lost, duplicated or moved. -/
theorem order_kept (es : List LEl) (f : Forest LNode) (h : arrange es = some f) :
    (flatten f).filterMap shown = es.filterMap given := by
  have := arranged es
  rw [h] at this
  have := places_shown es [] _ this.symm
  rw [← this, ← outline_fst f 0, List.filterMap_map]; rfl

/-! ## Homogeneity -/

theorem run_good : ∀ (es : List LEl) (st st' : ArrSt) (path : Path), Rel st path → (path = [] → st.tree = .nil) →
    (∀ x ∈ preorder none st.tree, goodParent x.1 x.2) → run st es = some st' →
    ∀ x ∈ preorder none st'.tree, goodParent x.1 x.2
  | [], st, st', path, _, _, hg, h => by simp [run] at h; subst h; exact hg
  | e :: es, st, st', path, hr, h0, hg, h => by
    have hs := step_spec st path hr e
    simp only [run] at h
    cases hp : place path e with
    | none => rw [hp] at hs; simp only at hs; rw [hs] at h; simp at h
    | some r =>
      obtain ⟨added, path'⟩ := r
      rw [hp] at hs
      obtain ⟨st1, hs1, hr1, -⟩ := hs
      rw [hs1] at h
      refine run_good es st1 st' path' hr1 ?_ ?_ h
      · intro hc
        exfalso
        cases e with
        | other n => simp [place] at hp
        | cont o b =>
          simp only [place] at hp
          split at hp
          · cases hp
            have := congrArg List.length hc
            rw [List.length_take] at this
            simp at this; omega
          · simp at hp
        | item s n =>
          simp only [place] at hp
          split at hp
          · simp only [Option.some.injEq, Prod.mk.injEq] at hp; rw [← hp.2] at hc; simp at hc
          · simp only [Option.some.injEq, Prod.mk.injEq] at hp; rw [← hp.2] at hc; simp at hc
      · have hlen : 2 * path.length ≤ (Forest.spine st.tree).length := by
          rw [← nodes_length]; exact hr.spine.length_le
        have hparent : ∀ k, 0 < k → k ≤ path.length → ∃ s n, (Forest.spine st.tree)[2 * k - 1]? = some (.item s n) := by
          intro k hk hk'
          obtain ⟨c, hc⟩ := hr.spine
          have hlt : 2 * k - 1 < (nodes path).length := by rw [nodes_length]; omega
          rw [← hc, List.getElem?_append_left hlt]
          have e1 : path = path.take (k - 1) ++ path[k - 1]'(by omega) :: path.drop k := by
            have := List.take_append_drop (k - 1) path
            rw [List.drop_eq_getElem_cons (by omega : k - 1 < path.length)] at this
            have ek : k - 1 + 1 = k := by omega
            rw [ek] at this
            exact this.symm
          rw [e1, nodes_append, List.getElem?_append_right (by rw [nodes_length, List.length_take]; omega), nodes_length, List.length_take]
          have : 2 * k - 1 - 2 * min (k - 1) path.length = 1 := by omega
          rw [this]
          exact ⟨_, _, rfl⟩
        cases e with
        | other n => simp [place] at hp
        | cont o b =>
          have hstk : st.stack.length = path.length := by rw [hr.stack, List.length_map]
          simp only [step] at hs1
          split at hs1
          · simp at hs1
          · rename_i hne
            cases hs1
            have hl : (st.stack.take (st.stack.length - o)).length = path.length - o := by rw [List.length_take]; omega
            rw [hl]
            have hpos : 0 < path.length - o := by
              rw [← hl]; exact List.length_pos_iff.2 hne
            intro x hx
            rw [preorder_insertAt _ _ _ _ (by omega)] at hx
            rcases List.mem_append.1 hx with hx | hx
            · exact hg x hx
            · simp only [List.mem_singleton] at hx
              subst hx
              obtain ⟨s, n, hsn⟩ := hparent (path.length - o) hpos (by omega)
              have : 2 * (path.length - o) = (2 * (path.length - o) - 1) + 1 := by omega
              rw [this]
              simp only [parentAt]
              rw [hsn]
              trivial
        | item s n =>
          simp only [step] at hs1
          split at hs1
          · rename_i i hi
            cases hs1
            intro x hx
            cases hu : upTo s path with
            | none =>
              have := lastMatch_none s path hu
              rw [← hr.stack, hi] at this; simp at this
            | some q =>
              obtain ⟨hm, m, rest, hpath⟩ := lastMatch_some s path q hu
              rw [← hr.stack, hi] at hm
              simp only [Option.some.injEq] at hm
              have hq : q.length < path.length := by rw [hpath]; simp
              rw [hm, preorder_insertAt _ _ _ _ (by omega)] at hx
              rcases List.mem_append.1 hx with hx | hx
              · exact hg x hx
              · simp only [List.mem_singleton] at hx
                subst hx
                simp only [parentAt]
                obtain ⟨c, hc⟩ := hr.spine
                rw [← hc, List.getElem?_append_left (by rw [nodes_length]; omega), hpath, nodes_append,
                  List.getElem?_append_right (by rw [nodes_length]; omega), nodes_length]
                simp [nodes, goodParent]
          · cases hs1
            have hstk : st.stack.length = path.length := by rw [hr.stack, List.length_map]
            simp only [hstk]
            intro x hx
            generalize adjust st.stack.getLast? s = t at hx
            have hsp := spine_insertAt st.tree (2 * path.length) (.list t) hlen
            have hsl : (Forest.spine (st.tree.insertAt (2 * path.length) (.list t))).length = 2 * path.length + 1 := by
              rw [hsp]; simp; omega
            rw [preorder_insertAt _ _ _ _ (by rw [hsl]; omega), preorder_insertAt _ _ _ _ hlen] at hx
            simp only [List.mem_append, List.mem_singleton] at hx
            rcases hx with (hx | hx) | hx
            · exact hg x hx
            · subst hx
              by_cases hp0 : path.length = 0
              · rw [hp0]; trivial
              · obtain ⟨u, v, huv⟩ := hparent path.length (by omega) (by omega)
                have : 2 * path.length = (2 * path.length - 1) + 1 := by omega
                rw [this]
                simp only [parentAt]
                rw [huv]
                trivial
            · subst hx
              simp only [parentAt]
              rw [hsp, List.getElem?_append_right (by rw [List.length_take]; omega), List.length_take]
              have : 2 * path.length - min (2 * path.length) (Forest.spine st.tree).length = 0 := by omega
              rw [this]
              rfl

/-- C19, homogeneity: in the arranged list, every list element is directly in a list of its own kind and style, every list but
the root and every attached block directly in a list element. -/
theorem homogeneous (es : List LEl) (f : Forest LNode) (h : arrange es = some f) :
    ∀ x ∈ preorder none f, goodParent x.1 x.2 := by
  simp only [arrange, Option.map_eq_some_iff] at h
  obtain ⟨st, hst, rfl⟩ := h
  exact run_good es ⟨.nil, []⟩ st [] ⟨rfl, List.nil_prefix⟩ (fun _ => rfl) (by simp [preorder]) hst

theorem place_path_pos (path path' : Path) (e : LEl) (added) (h : place path e = some (added, path')) : 0 < path'.length := by
  cases e with
  | other n => simp [place] at h
  | cont o b =>
    simp only [place] at h
    split at h
    · cases h
      rw [List.length_take]; omega
    · simp at h
  | item s n =>
    simp only [place] at h
    split at h
    · simp only [Option.some.injEq, Prod.mk.injEq] at h; rw [← h.2]; simp
    · simp only [Option.some.injEq, Prod.mk.injEq] at h; rw [← h.2]; simp

theorem places_deep : ∀ (es : List LEl) (path : Path) (l : List (LNode × Nat)), 0 < path.length → places path es = some l →
    ∀ x ∈ l, 0 < x.2
  | [], _, l, _, h => by simp [places] at h; subst h; simp
  | e :: es, path, l, hpos, h => by
    simp only [places] at h
    cases hp : place path e with
    | none => rw [hp] at h; simp at h
    | some r =>
      obtain ⟨added, path'⟩ := r
      rw [hp] at h
      simp only at h
      cases hq : places path' es with
      | none => rw [hq] at h; simp at h
      | some l' =>
        rw [hq] at h
        simp only [Option.map_some, Option.some.injEq] at h
        subst h
        intro x hx
        rcases List.mem_append.1 hx with hx | hx
        · cases e with
          | other n => simp [place] at hp
          | cont o b =>
            simp only [place] at hp
            split at hp
            · cases hp; simp at hx; subst hx; simp; omega
            · simp at hp
          | item s n =>
            simp only [place] at hp
            split at hp
            · simp only [Option.some.injEq, Prod.mk.injEq] at hp; rw [← hp.1] at hx; simp at hx; subst hx; simp
            · simp only [Option.some.injEq, Prod.mk.injEq] at hp; rw [← hp.1] at hx
              simp only [List.mem_cons, List.not_mem_nil, or_false] at hx
              rcases hx with hx | hx
              · subst hx; simp only; omega
              · subst hx; simp only; omega
        · exact places_deep es path' l' (place_path_pos _ _ _ _ hp) hq x hx

/-- C19, root: a non-empty sequence of list elements is arranged in one list (the code returns the first list only,
so nothing is left out). -/
theorem single_root (es : List LEl) (f : Forest LNode) (h : arrange es = some f) (hne : es ≠ []) :
    ∃ s kids, f = .cons (.list s) kids .nil := by
  have ho := arranged es
  rw [h] at ho
  simp only [Option.map_some] at ho
  cases es with
  | nil => exact absurd rfl hne
  | cons e es =>
    simp only [places] at ho
    cases hp : place [] e with
    | none => rw [hp] at ho; simp at ho
    | some r =>
      obtain ⟨added, path'⟩ := r
      rw [hp] at ho
      simp only at ho
      cases hq : places path' es with
      | none => rw [hq] at ho; simp at ho
      | some l' =>
        rw [hq] at ho
        simp only [Option.map_some, Option.some.injEq] at ho
        have hdeep := places_deep es path' l' (place_path_pos _ _ _ _ hp) hq
        cases e with
        | other n => simp [place] at hp
        | cont o b => simp [place] at hp
        | item s n =>
          simp only [place, upTo, Option.some.injEq, Prod.mk.injEq] at hp
          rw [← hp.1] at ho
          cases f with
          | nil => simp [outline] at ho
          | cons a k r =>
            simp only [outline, List.cons_append, List.cons.injEq, Prod.mk.injEq] at ho
            cases r with
            | nil => exact ⟨_, k, by rw [ho.1.1]⟩
            | cons b k' r' =>
              exfalso
              have hb : (b, 0) ∈ outline 0 (cons b k' r') := by simp [outline]
              have : (b, 0) ∈ outline (0 + 1) k ++ outline 0 (cons b k' r') := List.mem_append_right _ hb
              rw [ho.2] at this
              simp only [List.nil_append, List.mem_cons] at this
              rcases this with this | this
              · simp at this
              · exact absurd (hdeep _ this) (by simp)

/-! ## Kinds and styles -/

theorem next_idem (s : Style) (p : Option (Style × Nat)) : kind (nested p s) = kind s := by
  cases p with
  | none => cases s <;> rfl
  | some p => obtain ⟨t, n⟩ := p; cases s <;> cases t <;> rfl

/-- The number and kind of the list elements of the input. -/
def kinds : LEl → Option (Nat × Nat)
  | .item s n => some (kind s, n)
  | _ => none

/-- The number and kind of the list elements of the result. -/
def nodeKinds : LNode → Option (Nat × Nat)
  | .item s n => some (kind s, n)
  | _ => none

theorem places_kinds : ∀ (es : List LEl) (path : Path) (l : List (LNode × Nat)), places path es = some l →
    l.filterMap (fun x => nodeKinds x.1) = es.filterMap kinds
  | [], _, l, h => by simp [places] at h; subst h; rfl
  | e :: es, path, l, h => by
    simp only [places] at h
    cases hp : place path e with
    | none => rw [hp] at h; simp at h
    | some r =>
      obtain ⟨added, path'⟩ := r
      rw [hp] at h
      simp only at h
      cases hq : places path' es with
      | none => rw [hq] at h; simp at h
      | some l' =>
        rw [hq] at h
        simp only [Option.map_some, Option.some.injEq] at h
        subst h
        rw [List.filterMap_append, places_kinds es path' l' hq]
        cases e with
        | other n => simp [place] at hp
        | cont o b =>
          simp only [place] at hp
          split at hp
          · cases hp; simp [nodeKinds, kinds, List.filterMap_cons]
          · simp at hp
        | item s n =>
          simp only [place] at hp
          split at hp
          · cases hp; simp [nodeKinds, kinds]
          · simp only [Option.some.injEq, Prod.mk.injEq] at hp
            rw [← hp.1]
            simp [nodeKinds, kinds, next_idem]

/-- C19, kinds: ordered elements stay ordered, and so on (the bullet of an unordered element may change). -/
theorem kinds_kept (es : List LEl) (f : Forest LNode) (h : arrange es = some f) :
    (flatten f).filterMap nodeKinds = es.filterMap kinds := by
  have := arranged es
  rw [h] at this
  have := places_kinds es [] _ this.symm
  rw [← this, ← outline_fst f 0, List.filterMap_map]; rfl

/-! ## Success -/

/-- C19, success: without continuations, arranging list elements never fails. -/
theorem succeeds (es : List LEl) (h : ∀ e ∈ es, ∃ s n, e = .item s n) : (arrange es).isSome = true := by
  have hp : ∀ (es : List LEl) (path : Path), (∀ e ∈ es, ∃ s n, e = .item s n) → (places path es).isSome = true := by
    intro es
    induction es with
    | nil => intro _ _; rfl
    | cons e es ih =>
      intro path h
      obtain ⟨s, n, rfl⟩ := h e (by simp)
      simp only [places, place]
      cases upTo s path with
      | some q => simp only; rw [Option.isSome_map]; exact ih _ (fun e he => h e (by simp [he]))
      | none => simp only; rw [Option.isSome_map]; exact ih _ (fun e he => h e (by simp [he]))
  have := hp es [] h
  rw [← arranged] at this
  simpa using this

/-- The depth of nesting after a sequence of elements, if all can be placed. -/
def open_ (path : Path) : List LEl → Option Path
  | [] => some path
  | e :: es => (place path e).bind (fun r => open_ r.2 es)

/-- C19, failure: a continuation that skips at least as many lists as are open makes the whole list fail. -/
theorem fails_on_deep_continuation (es rest : List LEl) (path : Path) (o : Nat) (b : BEl)
    (hp : open_ [] es = some path) (ho : path.length ≤ o) : arrange (es ++ .cont o b :: rest) = none := by
  have key : ∀ (es : List LEl) (p0 : Path), open_ p0 es = some path → places p0 (es ++ .cont o b :: rest) = none := by
    intro es
    induction es with
    | nil =>
      intro p0 h
      simp only [open_, Option.some.injEq] at h
      subst h
      simp only [List.nil_append, places, place]
      rw [if_neg (by omega)]
    | cons e es ih =>
      intro p0 h
      simp only [open_, Option.bind_eq_some_iff] at h
      obtain ⟨⟨added, p1⟩, h1, h2⟩ := h
      simp only [List.cons_append, places, h1]
      rw [ih p1 h2]; rfl
  have := arranged (es ++ .cont o b :: rest)
  rw [key es [] hp] at this
  simpa using this

/-! ## Examples and findings -/

/-- `. a`, `** b`, `** c`, `+` block, `. d`, blank line, `+` ... -/
def ex1 : List LEl := [.item (.ordered ['a']) 1, .item (.unordered .two) 2, .item (.unordered .two) 3, .cont 0 (.leaf 9), .cont 1 (.leaf 8),
  .item (.ordered ['a']) 4]

example : (arrange ex1).map (outline 0) = some [(.list (.ordered ['a']), 0), (.item (.ordered ['a']) 1, 1),
    (.list (.unordered .two), 2), (.item (.unordered .two) 2, 3), (.item (.unordered .two) 3, 3), (.blk (.leaf 9), 4),
    (.blk (.leaf 8), 2), (.item (.ordered ['a']) 4, 1)] := by rfl

/-- Finding: the elements `- a`, `** b`, `** c` are not arranged as `b` and `c` side by side: `b` is relabelled `*`, so that
`c` no longer matches it and is nested below it. -/
theorem finding_siblings_nested :
    (arrange [.item (.unordered .dash) 1, .item (.unordered .two) 2, .item (.unordered .two) 3]).map (outline 0) =
      some [(.list (.unordered .dash), 0), (.item (.unordered .dash) 1, 1),
        (.list (.unordered .one), 2), (.item (.unordered .one) 2, 3),
        (.list (.unordered .two), 4), (.item (.unordered .two) 3, 5)] := by rfl

/-- Finding: two continuations in a row below a single list element (`* a`, two blank lines, `+`) lose the whole list: the
fragment is replaced by an error. -/
theorem finding_continuation_loses_list (s : Style) (n : Nat) (o : Nat) (b : BEl) (rest : List LEl) :
    arrange (.item s n :: .cont (o + 1) b :: rest) = none :=
  fails_on_deep_continuation [.item s n] rest [(s, n)] (o + 1) b
    (by simp [open_, place, upTo, nested]) (by simp)

/-- Finding: list elements inside of a delimited block attached to a list element are never arranged, and rendering
fails. -/
theorem finding_list_in_attached_block (s : Style) (n m k : Nat) (es : List LEl) :
    ∃ f, arrange [.item s n, .cont 0 (.block k [.lists es, .leaf m])] = some f ∧ listRenderable f = false := by
  refine ⟨.cons (.list s) (.cons (.item s n) (.cons (.blk (.block k [.lists es, .leaf m])) .nil .nil) .nil) .nil, ?_, ?_⟩
  · cases s <;> rfl
  · rfl

end Verif.C19
