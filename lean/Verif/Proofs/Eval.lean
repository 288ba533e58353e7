import Verif.Proofs.Peg

/-!
The big-step relation of the interpreter: `Eval e st s t r` says that the expression `e` ends with the result
`r`. One equivalence per constructor, and determinism.
-/
namespace Verif
namespace Peg
variable {σ : Type} (G : Nat → Exp) (S : Sem σ)

/-- The interpreter ends with the result `r`. -/
def Eval (e : Exp) (st : Text) (s : σ) (t : Text) (r : Res σ) : Prop := ∃ n, run G S n e st s t = some r

variable {G S} {a b e : Exp} {st t u : Text} {s s' : σ} {r r' : Res σ}

theorem Eval.det (h : Eval G S e st s t r) (h' : Eval G S e st s t r') : r = r' := by
  obtain ⟨n, h⟩ := h
  obtain ⟨m, h'⟩ := h'
  exact run_det G S h h'

theorem eval_of_run {n : Nat} (h : run G S n e st s t = some r) : Eval G S e st s t r := ⟨n, h⟩

/-- A run of positive depth. -/
theorem Eval.succ (h : Eval G S e st s t r) : ∃ n, run G S (n + 1) e st s t = some r := by
  obtain ⟨n, h⟩ := h
  exact ⟨n, run_mono G S _ _ _ _ _ _ h⟩

theorem Eval.two {e' : Exp} {st' t' : Text} {s1 : σ} {r1 : Res σ} (h : Eval G S e st s t r)
    (h' : Eval G S e' st' s1 t' r1) : ∃ n, run G S n e st s t = some r ∧ run G S n e' st' s1 t' = some r1 := by
  obtain ⟨n, h⟩ := h
  obtain ⟨m, h'⟩ := h'
  exact ⟨max n m, run_le G S (Nat.le_max_left n m) h, run_le G S (Nat.le_max_right n m) h'⟩

theorem eval_eps : Eval G S .eps st s t r ↔ r = .ok s t := by
  constructor
  · intro h; obtain ⟨n, h⟩ := h.succ; cases h; rfl
  · rintro rfl; exact ⟨1, rfl⟩

theorem eval_any_nil : Eval G S .any st s [] r ↔ r = .fail s := by
  constructor
  · intro h; obtain ⟨n, h⟩ := h.succ; cases h; rfl
  · rintro rfl; exact ⟨1, rfl⟩

theorem eval_any_cons {c : Char} : Eval G S .any st s (c :: t) r ↔ r = .ok s t := by
  constructor
  · intro h; obtain ⟨n, h⟩ := h.succ; cases h; rfl
  · rintro rfl; exact ⟨1, rfl⟩

/-- The result of a literal. -/
def litRes (s : σ) : Option Text → Res σ
  | none => .fail s
  | some u => .ok s u

theorem eval_lit {l : List Char} : Eval G S (.lit l) st s t r ↔ r = litRes s (matchLit l t) := by
  constructor
  · intro h
    obtain ⟨n, h⟩ := h.succ
    have h : (match matchLit l t with | none => some (Res.fail s) | some r => some (.ok s r)) = some r := h
    cases hm : matchLit l t <;> rw [hm] at h <;> cases h <;> rfl
  · rintro rfl
    cases hm : matchLit l t <;> exact ⟨1, by unfold run; rw [hm]; rfl⟩

theorem eval_litI {l : List Char} : Eval G S (.litI l) st s t r ↔ r = litRes s (matchLitI l t) := by
  constructor
  · intro h
    obtain ⟨n, h⟩ := h.succ
    have h : (match matchLitI l t with | none => some (Res.fail s) | some r => some (.ok s r)) = some r := h
    cases hm : matchLitI l t <;> rw [hm] at h <;> cases h <;> rfl
  · rintro rfl
    cases hm : matchLitI l t <;> exact ⟨1, by unfold run; rw [hm]; rfl⟩

theorem eval_cls_nil {c : Cls} : Eval G S (.cls c) st s [] r ↔ r = .fail s := by
  constructor
  · intro h; obtain ⟨n, h⟩ := h.succ; cases h; rfl
  · rintro rfl; exact ⟨1, rfl⟩

theorem eval_cls_cons {c : Cls} {x : Char} :
    Eval G S (.cls c) st s (x :: t) r ↔ r = if c.has S.letter S.number x then .ok s t else .fail s := by
  constructor
  · intro h
    obtain ⟨n, h⟩ := h.succ
    have h : (if c.has S.letter S.number x then some (Res.ok s t) else some (.fail s)) = some r := h
    split at h <;> cases h <;> simp [*]
  · rintro rfl
    refine ⟨1, ?_⟩
    unfold run
    dsimp only
    split <;> rfl

theorem eval_seq : Eval G S (.seq a b) st s t r ↔
    (∃ s1, Eval G S a st s t (.fail s1) ∧ r = .fail s1) ∨
    (∃ s1 u, Eval G S a st s t (.ok s1 u) ∧ Eval G S b st s1 u r) := by
  constructor
  · intro h
    obtain ⟨n, h⟩ := h.succ
    have h : (match run G S n a st s t with
        | none => none
        | some (.fail s') => some (.fail s')
        | some (.ok s' r) => run G S n b st s' r) = some r := h
    cases ha : run G S n a st s t with
    | none => rw [ha] at h; cases h
    | some ra =>
      rw [ha] at h
      cases ra with
      | fail s1 => cases h; exact .inl ⟨s1, ⟨n, ha⟩, rfl⟩
      | ok s1 u => exact .inr ⟨s1, u, ⟨n, ha⟩, ⟨n, h⟩⟩
  · rintro (⟨s1, ⟨n, h⟩, rfl⟩ | ⟨s1, u, h, h'⟩)
    · exact ⟨n + 1, by unfold run; rw [h]⟩
    · obtain ⟨n, h, h'⟩ := h.two h'
      exact ⟨n + 1, by unfold run; rw [h]; exact h'⟩

theorem eval_alt : Eval G S (.alt a b) st s t r ↔
    (∃ s1, Eval G S a st s t (.fail s1) ∧ Eval G S b st (S.restore s s1) t r) ∨
    (∃ s1 u, Eval G S a st s t (.ok s1 u) ∧ r = .ok s1 u) := by
  constructor
  · intro h
    obtain ⟨n, h⟩ := h.succ
    have h : (match run G S n a st s t with
        | none => none
        | some (.fail s') => run G S n b st (S.restore s s') t
        | some (.ok s' r) => some (.ok s' r)) = some r := h
    cases ha : run G S n a st s t with
    | none => rw [ha] at h; cases h
    | some ra =>
      rw [ha] at h
      cases ra with
      | fail s1 => exact .inl ⟨s1, ⟨n, ha⟩, ⟨n, h⟩⟩
      | ok s1 u => cases h; exact .inr ⟨s1, u, ⟨n, ha⟩, rfl⟩
  · rintro (⟨s1, h, h'⟩ | ⟨s1, u, ⟨n, h⟩, rfl⟩)
    · obtain ⟨n, h, h'⟩ := h.two h'
      exact ⟨n + 1, by unfold run; rw [h]; exact h'⟩
    · exact ⟨n + 1, by unfold run; rw [h]⟩

theorem eval_star : Eval G S (.star e) st s t r ↔
    (∃ s1, Eval G S e st s t (.fail s1) ∧ r = .ok s1 t) ∨
    (∃ s1 u, Eval G S e st s t (.ok s1 u) ∧ Eval G S (.star e) st s1 u r) := by
  constructor
  · intro h
    obtain ⟨n, h⟩ := h.succ
    have h : (match run G S n e st s t with
        | none => none
        | some (.fail s') => some (.ok s' t)
        | some (.ok s' r) => run G S n (.star e) st s' r) = some r := h
    cases ha : run G S n e st s t with
    | none => rw [ha] at h; cases h
    | some ra =>
      rw [ha] at h
      cases ra with
      | fail s1 => cases h; exact .inl ⟨s1, ⟨n, ha⟩, rfl⟩
      | ok s1 u => exact .inr ⟨s1, u, ⟨n, ha⟩, ⟨n, h⟩⟩
  · rintro (⟨s1, ⟨n, h⟩, rfl⟩ | ⟨s1, u, h, h'⟩)
    · exact ⟨n + 1, by unfold run; rw [h]⟩
    · obtain ⟨n, h, h'⟩ := h.two h'
      exact ⟨n + 1, by unfold run; rw [h]; exact h'⟩

theorem eval_plus : Eval G S (.plus e) st s t r ↔
    (∃ s1, Eval G S e st s t (.fail s1) ∧ r = .fail s1) ∨
    (∃ s1 u, Eval G S e st s t (.ok s1 u) ∧ Eval G S (.star e) st s1 u r) := by
  constructor
  · intro h
    obtain ⟨n, h⟩ := h.succ
    have h : (match run G S n e st s t with
        | none => none
        | some (.fail s') => some (.fail s')
        | some (.ok s' r) => run G S n (.star e) st s' r) = some r := h
    cases ha : run G S n e st s t with
    | none => rw [ha] at h; cases h
    | some ra =>
      rw [ha] at h
      cases ra with
      | fail s1 => cases h; exact .inl ⟨s1, ⟨n, ha⟩, rfl⟩
      | ok s1 u => exact .inr ⟨s1, u, ⟨n, ha⟩, ⟨n, h⟩⟩
  · rintro (⟨s1, ⟨n, h⟩, rfl⟩ | ⟨s1, u, h, h'⟩)
    · exact ⟨n + 1, by unfold run; rw [h]⟩
    · obtain ⟨n, h, h'⟩ := h.two h'
      exact ⟨n + 1, by unfold run; rw [h]; exact h'⟩

theorem eval_opt : Eval G S (.opt e) st s t r ↔
    (∃ s1, Eval G S e st s t (.fail s1) ∧ r = .ok s1 t) ∨ (∃ s1 u, Eval G S e st s t (.ok s1 u) ∧ r = .ok s1 u) := by
  constructor
  · intro h
    obtain ⟨n, h⟩ := h.succ
    have h : (match run G S n e st s t with
        | none => none
        | some (.fail s') => some (.ok s' t)
        | some (.ok s' r) => some (.ok s' r)) = some r := h
    cases ha : run G S n e st s t with
    | none => rw [ha] at h; cases h
    | some ra =>
      rw [ha] at h
      cases ra with
      | fail s1 => cases h; exact .inl ⟨s1, ⟨n, ha⟩, rfl⟩
      | ok s1 u => cases h; exact .inr ⟨s1, u, ⟨n, ha⟩, rfl⟩
  · rintro (⟨s1, ⟨n, h⟩, rfl⟩ | ⟨s1, u, ⟨n, h⟩, rfl⟩)
    · exact ⟨n + 1, by unfold run; rw [h]⟩
    · exact ⟨n + 1, by unfold run; rw [h]⟩

theorem eval_andP : Eval G S (.andP e) st s t r ↔
    (∃ s1, Eval G S e st s t (.fail s1) ∧ r = .fail (S.restore s s1)) ∨
    (∃ s1 u, Eval G S e st s t (.ok s1 u) ∧ r = .ok (S.restore s s1) t) := by
  constructor
  · intro h
    obtain ⟨n, h⟩ := h.succ
    have h : (match run G S n e st s t with
        | none => none
        | some (.fail s') => some (.fail (S.restore s s'))
        | some (.ok s' _) => some (.ok (S.restore s s') t)) = some r := h
    cases ha : run G S n e st s t with
    | none => rw [ha] at h; cases h
    | some ra =>
      rw [ha] at h
      cases ra with
      | fail s1 => cases h; exact .inl ⟨s1, ⟨n, ha⟩, rfl⟩
      | ok s1 u => cases h; exact .inr ⟨s1, u, ⟨n, ha⟩, rfl⟩
  · rintro (⟨s1, ⟨n, h⟩, rfl⟩ | ⟨s1, u, ⟨n, h⟩, rfl⟩)
    · exact ⟨n + 1, by unfold run; rw [h]⟩
    · exact ⟨n + 1, by unfold run; rw [h]⟩

theorem eval_notP : Eval G S (.notP e) st s t r ↔
    (∃ s1, Eval G S e st s t (.fail s1) ∧ r = .ok (S.restore s s1) t) ∨
    (∃ s1 u, Eval G S e st s t (.ok s1 u) ∧ r = .fail (S.restore s s1)) := by
  constructor
  · intro h
    obtain ⟨n, h⟩ := h.succ
    have h : (match run G S n e st s t with
        | none => none
        | some (.fail s') => some (.ok (S.restore s s') t)
        | some (.ok s' _) => some (.fail (S.restore s s'))) = some r := h
    cases ha : run G S n e st s t with
    | none => rw [ha] at h; cases h
    | some ra =>
      rw [ha] at h
      cases ra with
      | fail s1 => cases h; exact .inl ⟨s1, ⟨n, ha⟩, rfl⟩
      | ok s1 u => cases h; exact .inr ⟨s1, u, ⟨n, ha⟩, rfl⟩
  · rintro (⟨s1, ⟨n, h⟩, rfl⟩ | ⟨s1, u, ⟨n, h⟩, rfl⟩)
    · exact ⟨n + 1, by unfold run; rw [h]⟩
    · exact ⟨n + 1, by unfold run; rw [h]⟩

theorem eval_rule {i : Nat} : Eval G S (.rule i) st s t r ↔ Eval G S (G i) t s t r := by
  constructor
  · intro h
    obtain ⟨n, h⟩ := h.succ
    exact ⟨n, h⟩
  · rintro ⟨n, h⟩
    exact ⟨n + 1, h⟩

/-- The result of a predicate. -/
def predRes (t : Text) : Bool × σ → Res σ
  | (true, s) => .ok s t
  | (false, s) => .fail s

theorem eval_pred {id : Nat} : Eval G S (.pred id) st s t r ↔ r = predRes t (S.pred id s st t) := by
  constructor
  · intro h
    obtain ⟨n, h⟩ := h.succ
    have h : (match S.pred id s st t with
        | (true, s') => some (Res.ok s' t)
        | (false, s') => some (.fail s')) = some r := h
    rcases hp : S.pred id s st t with ⟨b, s'⟩
    rw [hp] at h
    cases b <;> cases h <;> rfl
  · rintro rfl
    rcases hp : S.pred id s st t with ⟨b, s'⟩
    cases b <;> exact ⟨1, by unfold run; rw [hp]; rfl⟩

theorem eval_state {id : Nat} : Eval G S (.state id) st s t r ↔ r = .ok (S.state id s st t) t := by
  constructor
  · intro h; obtain ⟨n, h⟩ := h.succ; cases h; rfl
  · rintro rfl; exact ⟨1, rfl⟩

theorem eval_act {id : Nat} : Eval G S (.act id e) st s t r ↔
    (∃ s1, Eval G S e st s t (.fail s1) ∧ r = .fail s1) ∨
    (∃ s1 u, Eval G S e st s t (.ok s1 u) ∧ r = .ok (S.act id s1 t u) u) := by
  constructor
  · intro h
    obtain ⟨n, h⟩ := h.succ
    have h : (match run G S n e st s t with
        | none => none
        | some (.fail s') => some (.fail s')
        | some (.ok s' r) => some (.ok (S.act id s' t r) r)) = some r := h
    cases ha : run G S n e st s t with
    | none => rw [ha] at h; cases h
    | some ra =>
      rw [ha] at h
      cases ra with
      | fail s1 => cases h; exact .inl ⟨s1, ⟨n, ha⟩, rfl⟩
      | ok s1 u => cases h; exact .inr ⟨s1, u, ⟨n, ha⟩, rfl⟩
  · rintro (⟨s1, ⟨n, h⟩, rfl⟩ | ⟨s1, u, ⟨n, h⟩, rfl⟩)
    · exact ⟨n + 1, by unfold run; rw [h]⟩
    · exact ⟨n + 1, by unfold run; rw [h]⟩

theorem eval_scope : Eval G S (.scope e) st s t r ↔
    (∃ s1, Eval G S e t s t (.fail s1) ∧ r = .fail (S.restore s s1)) ∨
    (∃ s1 u, Eval G S e t s t (.ok s1 u) ∧ r = .ok s1 u) := by
  constructor
  · intro h
    obtain ⟨n, h⟩ := h.succ
    have h : (match run G S n e t s t with
        | none => none
        | some (.fail s') => some (.fail (S.restore s s'))
        | some (.ok s' r) => some (.ok s' r)) = some r := h
    cases ha : run G S n e t s t with
    | none => rw [ha] at h; cases h
    | some ra =>
      rw [ha] at h
      cases ra with
      | fail s1 => cases h; exact .inl ⟨s1, ⟨n, ha⟩, rfl⟩
      | ok s1 u => cases h; exact .inr ⟨s1, u, ⟨n, ha⟩, rfl⟩
  · rintro (⟨s1, ⟨n, h⟩, rfl⟩ | ⟨s1, u, ⟨n, h⟩, rfl⟩)
    · exact ⟨n + 1, by unfold run; rw [h]⟩
    · exact ⟨n + 1, by unfold run; rw [h]⟩

end Peg
end Verif
