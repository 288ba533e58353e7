import Verif.Model.Include
/-! Helper lemmas for the selection of lines of included files. -/
namespace Verif

theorem lineMatch_sorted (rs : List LineRange) (hs : rs.Pairwise (fun a b => a.start ≤ b.start)) (n : Int) :
    lineMatch rs n = true ↔ ∃ r ∈ rs, r.start ≤ n ∧ (n ≤ r.stop ∨ r.stop = -1) := by
  induction rs with
  | nil => simp [lineMatch]
  | cons r rs ih =>
    rw [List.pairwise_cons] at hs
    unfold lineMatch
    split
    · rename_i h; simp only [true_iff]; exact ⟨r, List.mem_cons_self, h.1, h.2⟩
    · rename_i h
      split
      · rename_i h2
        simp only [Bool.false_eq_true, false_iff, not_exists, not_and]
        intro x hx hxn
        rcases List.mem_cons.1 hx with rfl | hx
        · omega
        · have := hs.1 x hx; omega
      · rw [ih hs.2]
        constructor
        · rintro ⟨x, hx, hp⟩; exact ⟨x, List.mem_cons_of_mem _ hx, hp⟩
        · rintro ⟨x, hx, hp⟩
          rcases List.mem_cons.1 hx with rfl | hx
          · exact absurd hp h
          · exact ⟨x, hx, hp⟩

theorem insertRange_perm (r : LineRange) (rs : List LineRange) : (insertRange r rs).Perm (r :: rs) := by
  induction rs with
  | nil => exact List.Perm.refl _
  | cons x xs ih =>
    unfold insertRange; split
    · exact List.Perm.refl _
    · exact (ih.cons x).trans (List.Perm.swap r x xs)

theorem insertRange_sorted (r : LineRange) (rs : List LineRange) (h : rs.Pairwise (fun a b => a.start ≤ b.start)) :
    (insertRange r rs).Pairwise (fun a b => a.start ≤ b.start) := by
  induction rs with
  | nil => simp [insertRange]
  | cons x xs ih =>
    have h' := List.pairwise_cons.1 h
    unfold insertRange; split
    · rename_i hle
      refine List.pairwise_cons.2 ⟨fun y hy => ?_, h⟩
      rcases List.mem_cons.1 hy with rfl | hy
      · exact hle
      · have := h'.1 y hy; omega
    · refine List.pairwise_cons.2 ⟨fun y hy => ?_, ih h'.2⟩
      have := (insertRange_perm r xs).mem_iff.1 hy
      rcases List.mem_cons.1 this with rfl | hy
      · omega
      · exact h'.1 y hy

theorem newLineRanges_perm (rs : List LineRange) : (newLineRanges rs).Perm rs := by
  unfold newLineRanges
  induction rs with
  | nil => exact List.Perm.refl _
  | cons r rs ih => exact (insertRange_perm r _).trans (ih.cons r)

theorem newLineRanges_sorted (rs : List LineRange) :
    (newLineRanges rs).Pairwise (fun a b => a.start ≤ b.start) := by
  unfold newLineRanges
  induction rs with
  | nil => simp
  | cons r rs ih => exact insertRange_sorted r _ ih

theorem takeWhile_append_stop {α : Type} (p : α → Bool) (a b : List α) (ha : ∀ x ∈ a, p x = true)
    (hb : ∀ x ∈ b.head?, p x = false) : (a ++ b).takeWhile p = a ∧ (a ++ b).dropWhile p = b := by
  induction a with
  | nil =>
    cases b with
    | nil => simp
    | cons x xs => have := hb x rfl; simp [this]
  | cons x xs ih =>
    have hx := ha x List.mem_cons_self
    have := ih (fun y hy => ha y (List.mem_cons_of_mem _ hy))
    simp [hx, this]

theorem mem_takeWhile_imp' {α : Type} (p : α → Bool) : ∀ (l : List α) (x : α), x ∈ l.takeWhile p → p x = true
  | [], x, h => by simp at h
  | y :: ys, x, h => by
    rw [List.takeWhile_cons] at h
    split at h
    · rename_i hy
      rcases List.mem_cons.1 h with rfl | h
      · exact hy
      · exact mem_takeWhile_imp' p ys x h
    · simp at h

/-- Splitting of the shape `tag::name[]` after the prefix. -/
theorem bracket_iff (alnum : Char → Bool) (hb : alnum '[' = false) (r n r' : Text) :
    (r.takeWhile alnum = n ∧ n ≠ [] ∧ r.dropWhile alnum = '[' :: ']' :: r') ↔
      (r = n ++ '[' :: ']' :: r' ∧ n ≠ [] ∧ ∀ c ∈ n, alnum c = true) := by
  constructor
  · rintro ⟨rfl, h2, h3⟩
    refine ⟨?_, h2, ?_⟩
    · rw [← h3]; exact (List.takeWhile_append_dropWhile).symm
    · intro c hc; exact mem_takeWhile_imp' _ _ _ hc
  · rintro ⟨rfl, h2, h3⟩
    have := takeWhile_append_stop alnum n ('[' :: ']' :: r') h3 (by simp [hb])
    exact ⟨this.1, h2, this.2⟩

/-- Characterisation of `pTagMacro`. -/
theorem pTagMacro_iff (alnum : Char → Bool) (hb : alnum '[' = false) (t : Text) (m : TagMacro) (r : Text) :
    pTagMacro alnum t = some (m, r) ↔
      ∃ n, n ≠ [] ∧ (∀ c ∈ n, alnum c = true) ∧
        ((m = .start n ∧ t = "tag::".toList ++ n ++ "[]".toList ++ r) ∨
         (m = .stop n ∧ t = "end::".toList ++ n ++ "[]".toList ++ r)) := by
  have e1 : "tag::".toList = ['t', 'a', 'g', ':', ':'] := rfl
  have e2 : "end::".toList = ['e', 'n', 'd', ':', ':'] := rfl
  have e3 : "[]".toList = ['[', ']'] := rfl
  rw [e1, e2, e3]
  unfold pTagMacro
  split
  · rename_i q
    constructor
    · intro h
      dsimp only at h
      split at h
      · cases h
      · rename_i hne
        split at h
        · rename_i q' hq
          injection h with h; injection h with h1 h2
          have := (bracket_iff alnum hb q _ q').1 ⟨rfl, hne, hq⟩
          refine ⟨_, hne, this.2.2, Or.inl ⟨h1.symm, ?_⟩⟩
          rw [← h2]; simpa using this.1
        · cases h
    · rintro ⟨n, hn, ha, h | h⟩
      · obtain ⟨rfl, h⟩ := h
        have hq : q = n ++ '[' :: ']' :: r := by simpa using h
        have := (bracket_iff alnum hb q n r).2 ⟨hq, hn, ha⟩
        simp only [this.1, this.2.2, if_neg hn]
      · simp at h
  · rename_i q
    constructor
    · intro h
      dsimp only at h
      split at h
      · cases h
      · rename_i hne
        split at h
        · rename_i q' hq
          injection h with h; injection h with h1 h2
          have := (bracket_iff alnum hb q _ q').1 ⟨rfl, hne, hq⟩
          refine ⟨_, hne, this.2.2, Or.inr ⟨h1.symm, ?_⟩⟩
          rw [← h2]; simpa using this.1
        · cases h
    · rintro ⟨n, hn, ha, h | h⟩
      · simp at h
      · obtain ⟨rfl, h⟩ := h
        have hq : q = n ++ '[' :: ']' :: r := by simpa using h
        have := (bracket_iff alnum hb q n r).2 ⟨hq, hn, ha⟩
        simp only [this.1, this.2.2, if_neg hn]
  · rename_i h1 h2
    constructor
    · intro h; cases h
    · rintro ⟨n, hn, ha, h | h⟩
      · exact absurd (by simpa using h.2) (h1 (n ++ '[' :: ']' :: r))
      · exact absurd (by simpa using h.2) (h2 (n ++ '[' :: ']' :: r))

theorem lineTagsAux_nonempty (alnum : Char → Bool) (n : Nat) : ∀ (t : Text), t.length ≤ n →
    (lineTagsAux alnum n t ≠ [] ↔ ∃ pre post, t = pre ++ post ∧ (pTagMacro alnum post).isSome = true) := by
  have hnil : pTagMacro alnum [] = none := rfl
  induction n with
  | zero =>
    intro t ht
    have : t = [] := by simpa using ht
    subst this
    simp only [lineTagsAux, ne_eq, not_true_eq_false, false_iff, not_exists, not_and]
    intro pre post h
    have : post = [] := (List.append_eq_nil_iff.1 h.symm).2
    subst this; simp [hnil]
  | succ n ih =>
    intro t ht
    unfold lineTagsAux
    split
    · rename_i m r hm
      simp only [ne_eq, reduceCtorEq, not_false_eq_true, true_iff]
      exact ⟨[], t, rfl, by simp [hm]⟩
    · rename_i hm
      cases t with
      | nil =>
        simp only [ne_eq, not_true_eq_false, false_iff, not_exists, not_and]
        intro pre post h
        have : post = [] := (List.append_eq_nil_iff.1 h.symm).2
        subst this; simp [hnil]
      | cons c cs =>
        have := ih cs (by simpa using ht)
        dsimp only
        rw [this]
        constructor
        · rintro ⟨pre, post, h, hp⟩; exact ⟨c :: pre, post, by rw [h]; rfl, hp⟩
        · rintro ⟨pre, post, h, hp⟩
          cases pre with
          | nil =>
            have h : c :: cs = post := h
            rw [← h, hm] at hp; cases hp
          | cons p pre =>
            injection h with h1 h2
            exact ⟨pre, post, h2, hp⟩

end Verif
