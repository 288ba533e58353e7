import Verif.Model.Aggregate

/-!
The aggregated tree, in another way: a section contains what follows it, up to the next section of the same level or of a smaller one.
-/
namespace Verif
namespace Nested

variable {α : Type}

/-- Two forests side by side. -/
def beside : Forest α → Forest α → Forest α
  | .nil, g => g
  | .cons a k r, g => .cons a k (beside r g)

/-- A forest added at a depth. -/
def graft : Nat → Forest α → Forest α → Forest α
  | 0, g, f => beside f g
  | _ + 1, _, .nil => .nil
  | d + 1, g, .cons b k .nil => .cons b (graft d g k) .nil
  | d + 1, g, .cons b k (.cons b' k' r) => .cons b k (graft (d + 1) g (.cons b' k' r))

theorem graft_zero (g f : Forest α) : graft 0 g f = beside f g := by rw [graft]

theorem beside_nil : ∀ f : Forest α, beside f .nil = f
  | .nil => rfl
  | .cons a k r => by show Forest.cons a k (beside r .nil) = _; rw [beside_nil r]

theorem beside_assoc : ∀ f g h : Forest α, beside (beside f g) h = beside f (beside g h)
  | .nil, _, _ => rfl
  | .cons a k r, g, h => by show Forest.cons a k _ = Forest.cons a k _; rw [beside_assoc r g h]

theorem snoc_eq (a : α) : ∀ f : Forest α, Forest.snoc a f = beside f (.cons a .nil .nil)
  | .nil => rfl
  | .cons b k r => by show Forest.cons b k _ = Forest.cons b k _; rw [snoc_eq a r]

theorem insertAt_eq (a : α) : ∀ (d : Nat) (f : Forest α), f.insertAt d a = graft d (.cons a .nil .nil) f
  | 0, f => by rw [Forest.insertAt, graft_zero]; exact snoc_eq a f
  | _ + 1, .nil => rfl
  | d + 1, .cons b k .nil => by
    show Forest.cons b _ Forest.nil = Forest.cons b _ Forest.nil
    rw [insertAt_eq a d k]
  | d + 1, .cons b k (.cons b' k' r) => by
    show Forest.cons b k _ = Forest.cons b k _
    rw [insertAt_eq a (d + 1) (.cons b' k' r)]

theorem graft_nil : ∀ (d : Nat) (f : Forest α), graft d .nil f = f
  | 0, f => by rw [graft_zero]; exact beside_nil f
  | _ + 1, .nil => rfl
  | d + 1, .cons b k .nil => by
    show Forest.cons b _ Forest.nil = _
    rw [graft_nil d k]
  | d + 1, .cons b k (.cons b' k' r) => by
    show Forest.cons b k _ = _
    rw [graft_nil (d + 1) (.cons b' k' r)]

theorem graft_cons (d : Nat) (g : Forest α) (b : α) (k : Forest α) {f : Forest α} (h : f ≠ .nil) : graft (d + 1) g (.cons b k f) = .cons b k (graft (d + 1) g f) := by
  cases f with
  | nil => exact absurd rfl h
  | cons => rfl

theorem graft_ne (d : Nat) (g : Forest α) : ∀ {f : Forest α}, f ≠ .nil → graft (d + 1) g f ≠ .nil
  | .nil, h => absurd rfl h
  | .cons _ _ .nil, _ => fun h => nomatch h
  | .cons _ _ (.cons _ _ _), _ => fun h => nomatch h

/-- One forest after another at the same place. -/
theorem graft_graft (g h : Forest α) : ∀ (d : Nat) (f : Forest α), graft d g (graft d h f) = graft d (beside h g) f
  | 0, f => by rw [graft_zero, graft_zero, graft_zero]; exact beside_assoc f h g
  | _ + 1, .nil => rfl
  | d + 1, .cons b k .nil => by
    show Forest.cons b (graft d g (graft d h k)) Forest.nil = Forest.cons b _ Forest.nil
    rw [graft_graft g h d k]
  | d + 1, .cons b k (.cons b' k' r) => by
    have ih := graft_graft g h (d + 1) (.cons b' k' r)
    show graft (d + 1) g (.cons b k (graft (d + 1) h (.cons b' k' r))) = .cons b k (graft (d + 1) (beside h g) (.cons b' k' r))
    rw [graft_cons d g b k (graft_ne d h (f := .cons b' k' r) (fun h => nomatch h)), ih]

/-- A forest in the element that was added last. -/
theorem graft_into (g : Forest α) (a : α) : ∀ (d : Nat) (f : Forest α), graft (d + 1) g (graft d (.cons a .nil .nil) f) = graft d (.cons a g .nil) f
  | 0, .nil => rfl
  | 0, .cons b k r => by
    have ih := graft_into g a 0 r
    rw [graft_zero, graft_zero]
    show graft 1 g (.cons b k (beside r (.cons a .nil .nil))) = .cons b k (beside r (.cons a g .nil))
    rw [graft_zero, graft_zero] at ih
    rw [graft_cons 0 g b k (by cases r <;> exact fun h => nomatch h)]
    exact congrArg (Forest.cons b k) ih
  | _ + 1, .nil => rfl
  | d + 1, .cons b k .nil => by
    show Forest.cons b (graft (d + 1) g (graft d (.cons a .nil .nil) k)) Forest.nil = Forest.cons b _ Forest.nil
    rw [graft_into g a d k]
  | d + 1, .cons b k (.cons b' k' r) => by
    have ih := graft_into g a (d + 1) (.cons b' k' r)
    show graft (d + 2) g (.cons b k (graft (d + 1) (.cons a .nil .nil) (.cons b' k' r))) = .cons b k (graft (d + 1) (.cons a g .nil) (.cons b' k' r))
    rw [graft_cons (d + 1) g b k (graft_ne d _ (f := .cons b' k' r) (fun h => nomatch h)), ih]

/-- What belongs to a section of level `l`. -/
def below (l : Int) (e : Elem) : Bool :=
  match e.level? with
  | some l' => decide (l < l')
  | none => true

/-- The forest in which every section contains what belongs to it. -/
def nest : List Elem → Forest Elem
  | [] => .nil
  | e :: es =>
    match e.level? with
    | some l => .cons e (nest (es.takeWhile (below l))) (nest (es.dropWhile (below l)))
    | none => .cons e .nil (nest es)
termination_by es => es.length
decreasing_by
  · have := (List.takeWhile_sublist (l := es) (below l)).length_le; simp only [List.length_cons]; omega
  · have := (List.dropWhile_sublist (l := es) (below l)).length_le; simp only [List.length_cons]; omega
  · simp

theorem nest_sect (s : Sec) (es : List Elem) : nest (.sect s :: es) =
    .cons (.sect s) (nest (es.takeWhile (below s.level))) (nest (es.dropWhile (below s.level))) := by
  rw [nest]; rfl

theorem nest_other {e : Elem} (h : e.level? = none) (es : List Elem) : nest (e :: es) = .cons e .nil (nest es) := by
  rw [nest]
  split
  · next h' => rw [h] at h'; cases h'
  · rfl

/-- All sections are below the open ones. -/
def Under (O : List Int) (es : List Elem) : Prop := ∀ e ∈ es, ∀ l, e.level? = some l → ∀ p ∈ O, p < l

theorem trim_under {l : Int} : ∀ {O : List Int}, (∀ p ∈ O, p < l) → trimToParent l O = O := by
  intro O h
  have : indexOfParent l O = none := by
    induction O with
    | nil => rfl
    | cons p ps ih =>
      have hp := h p List.mem_cons_self
      unfold indexOfParent
      rw [if_neg (by omega), ih (fun q hq => h q (List.mem_cons_of_mem _ hq))]
      rfl
  unfold trimToParent
  rw [this]

theorem trim_back {l l' : Int} (hl : l' ≤ l) (X : List Int) {O : List Int} (h : ∀ p ∈ O, p < l') : trimToParent l' (O ++ l :: X) = O := by
  have : indexOfParent l' (O ++ l :: X) = some O.length := by
    induction O with
    | nil => exact if_pos hl
    | cons p ps ih =>
      have hp := h p List.mem_cons_self
      show (if p ≥ l' then some 0 else (indexOfParent l' (ps ++ l :: X)).map (· + 1)) = _
      rw [if_neg (by omega), ih (fun q hq => h q (List.mem_cons_of_mem _ hq))]
      rfl
  unfold trimToParent
  rw [this]
  exact List.take_left' rfl

theorem append_other {e : Elem} (h : e.level? = none) (a : Agg) : a.append e = ⟨a.tree.insertAt a.opened.length e, a.opened⟩ := by
  cases e <;> first | rfl | cases h

theorem mem_dropWhile {α : Type} {p : α → Bool} {l : List α} {x : α} (h : x ∈ l.dropWhile p) : x ∈ l := (List.dropWhile_sublist p).mem h

theorem mem_takeWhile {p : Elem → Bool} {l : List Elem} {x : Elem} (h : x ∈ l.takeWhile p) : x ∈ l ∧ p x = true := by
  induction l with
  | nil => cases h
  | cons a l ih =>
    rw [List.takeWhile_cons] at h
    split at h
    · next ha =>
      rcases List.mem_cons.mp h with rfl | h
      · exact ⟨List.mem_cons_self, ha⟩
      · exact ⟨List.mem_cons_of_mem _ (ih h).1, (ih h).2⟩
    · cases h

/-- Elements are added in the section that is open, and nested there. -/
theorem fold_nest : ∀ (n : Nat) (es : List Elem), es.length ≤ n → ∀ (f : Forest Elem) (O : List Int), Under O es →
    ∃ X, es.foldl Agg.append ⟨f, O⟩ = ⟨graft O.length (nest es) f, O ++ X⟩
  | _, [], _, f, O, _ => ⟨[], by rw [nest, graft_nil, List.append_nil]; rfl⟩
  | n + 1, e :: es, hn, f, O, hu => by
    have hn' : es.length ≤ n := by simpa using hn
    have hue : Under O es := fun x hx => hu x (List.mem_cons_of_mem _ hx)
    cases hl : e.level? with
    | none =>
      obtain ⟨X, hX⟩ := fold_nest n es hn' (graft O.length (.cons e .nil .nil) f) O hue
      refine ⟨X, ?_⟩
      rw [List.foldl_cons, append_other hl, insertAt_eq, hX, graft_graft, nest_other hl]
      rfl
    | some l =>
      obtain ⟨s, rfl⟩ : ∃ s, e = .sect s := by cases e <;> first | exact ⟨_, rfl⟩ | cases hl
      have hl' : s.level = l := Option.some.inj hl
      subst hl'
      have ho : ∀ p ∈ O, p < s.level := fun p hp => hu _ List.mem_cons_self _ rfl p hp
      have h1 : Agg.append ⟨f, O⟩ (.sect s) = ⟨graft O.length (.cons (.sect s) .nil .nil) f, O ++ [s.level]⟩ := by
        show Agg.mk _ _ = _
        rw [trim_under ho, insertAt_eq]
      have hA : Under (O ++ [s.level]) (es.takeWhile (below s.level)) := by
        intro x hx l hl p hp
        obtain ⟨hx, hb⟩ := mem_takeWhile hx
        rcases List.mem_append.mp hp with hp | hp
        · exact hue x hx l hl p hp
        · rw [List.mem_singleton] at hp
          subst hp
          unfold below at hb
          rw [hl] at hb
          exact of_decide_eq_true hb
      obtain ⟨X, hX⟩ := fold_nest n (es.takeWhile (below s.level)) (Nat.le_trans (List.takeWhile_sublist _).length_le hn')
        (graft O.length (.cons (.sect s) .nil .nil) f) (O ++ [s.level]) hA
      rw [List.length_append, List.length_singleton, graft_into] at hX
      have hsplit : (Elem.sect s :: es).foldl Agg.append ⟨f, O⟩ =
          (es.dropWhile (below s.level)).foldl Agg.append ⟨graft O.length (.cons (.sect s) (nest (es.takeWhile (below s.level))) .nil) f, O ++ [s.level] ++ X⟩ := by
        rw [List.foldl_cons, h1, ← hX, ← List.foldl_append, List.takeWhile_append_dropWhile]
      rw [hsplit, nest_sect]
      have hB : Under O (es.dropWhile (below s.level)) := fun x hx => hue x (mem_dropWhile hx)
      have hlen : (es.dropWhile (below s.level)).length ≤ n := Nat.le_trans (List.dropWhile_sublist _).length_le hn'
      cases hd : es.dropWhile (below s.level) with
      | nil => exact ⟨[s.level] ++ X, by rw [nest]; rw [List.append_assoc]; rfl⟩
      | cons b bs =>
        have hb : below s.level b = false := by
          have := List.head_dropWhile_not (l := es) (below s.level) (by rw [hd]; exact fun h => nomatch h)
          simpa [hd] using this
        obtain ⟨s', rfl⟩ : ∃ s', b = .sect s' := by cases b <;> first | exact ⟨_, rfl⟩ | cases hb
        have hle : s'.level ≤ s.level := by
          have h2 : decide (s.level < s'.level) = false := hb
          have := of_decide_eq_false h2
          omega
        rw [hd] at hB hlen
        obtain ⟨Y, hY⟩ := fold_nest n (.sect s' :: bs) hlen (graft O.length (.cons (.sect s) (nest (es.takeWhile (below s.level))) .nil) f) O hB
        refine ⟨Y, ?_⟩
        have ho' : ∀ p ∈ O, p < s'.level := fun p hp => hB _ List.mem_cons_self _ rfl p hp
        rw [show (graft O.length (.cons (.sect s) (nest (es.takeWhile (below s.level))) (nest (.sect s' :: bs))) f) =
          graft O.length (nest (.sect s' :: bs)) (graft O.length (.cons (.sect s) (nest (es.takeWhile (below s.level))) .nil) f) from by rw [graft_graft]; rfl, ← hY]
        rw [List.foldl_cons, List.foldl_cons]
        congr 1
        show Agg.mk _ _ = Agg.mk _ _
        rw [trim_under ho', List.append_assoc, List.singleton_append, trim_back hle X ho']

/-- The aggregated tree is the nested one. -/
theorem tree_nest (es : List Elem) : aggregateTree es = nest es := by
  obtain ⟨X, hX⟩ := fold_nest es.length es (Nat.le_refl _) .nil [] (fun _ _ _ _ _ h => nomatch h)
  unfold aggregateTree Agg.init
  rw [hX]
  rfl

end Nested
end Verif
