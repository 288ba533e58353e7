import Verif.Proofs.PegInv

/-!
What an expression does not change: a view of the state, when no code that changes it is reached.
-/
namespace Verif
namespace Peg

/-- No code of `bad` is in the expression, and it only refers to rules of the table. -/
def quiet (bad : List Nat) (tab : Nat → Bool) : Exp → Bool
  | .seq a b => quiet bad tab a && quiet bad tab b
  | .alt a b => quiet bad tab a && quiet bad tab b
  | .star e => quiet bad tab e
  | .plus e => quiet bad tab e
  | .opt e => quiet bad tab e
  | .andP e => quiet bad tab e
  | .notP e => quiet bad tab e
  | .act id e => quiet bad tab e && !bad.contains id
  | .pred id => !bad.contains id
  | .state id => !bad.contains id
  | .rule i => tab i
  | .scope e => quiet bad tab e
  | _ => true

section
variable {σ α : Type} {G : Nat → Exp} {S : Sem σ}

theorem run_keeps (f : σ → α) (bad : List Nat) (tab : Nat → Bool)
    (hG : ∀ i, tab i = true → quiet bad tab (G i) = true)
    (hpred : ∀ id s st t, id ∉ bad → f (S.pred id s st t).2 = f s)
    (hstate : ∀ id s st t, id ∉ bad → f (S.state id s st t) = f s)
    (hact : ∀ id s t u, id ∉ bad → f (S.act id s t u) = f s)
    (hrestore : ∀ a b, f a = f b → f (S.restore a b) = f a) :
    ∀ (n : Nat) (e : Exp) (st : Text) (s : σ) (t : Text) (r : Res σ), quiet bad tab e = true →
      run G S n e st s t = some r → f r.st = f s := by
  intro n
  induction n with
  | zero => intro e st s t r _ h; cases h
  | succ n ih =>
    intro e st s t r he h
    cases e with
    | eps => cases h; rfl
    | any => cases t <;> cases h <;> rfl
    | lit l =>
      have := eval_lit.mp (eval_of_run h)
      rw [this]; cases matchLit l t <;> rfl
    | litI l =>
      have := eval_litI.mp (eval_of_run h)
      rw [this]; cases matchLitI l t <;> rfl
    | cls c =>
      cases t with
      | nil => cases h; rfl
      | cons x t =>
        rw [eval_cls_cons.mp (eval_of_run h)]
        split <;> rfl
    | pred id =>
      rw [eval_pred.mp (eval_of_run h)]
      have := hpred id s st t (by simpa [quiet] using he)
      rcases hp : S.pred id s st t with ⟨b, s'⟩
      rw [hp] at this
      cases b <;> exact this
    | state id => cases h; exact hstate id s st t (by simpa [quiet] using he)
    | rule i => exact ih (G i) t s t r (hG i he) h
    | seq a b =>
      simp only [quiet, Bool.and_eq_true] at he
      unfold run at h
      cases ha : run G S n a st s t with
      | none => rw [ha] at h; cases h
      | some ra =>
        have ia := ih a st s t ra he.1 ha
        rw [ha] at h
        cases ra with
        | fail s1 => cases h; exact ia
        | ok s1 u => exact (ih b st s1 u _ he.2 h).trans ia
    | alt a b =>
      simp only [quiet, Bool.and_eq_true] at he
      unfold run at h
      cases ha : run G S n a st s t with
      | none => rw [ha] at h; cases h
      | some ra =>
        have ia := ih a st s t ra he.1 ha
        rw [ha] at h
        cases ra with
        | fail s1 => exact (ih b st _ t r he.2 h).trans (hrestore s s1 ia.symm)
        | ok s1 u => cases h; exact ia
    | star e =>
      unfold run at h
      cases ha : run G S n e st s t with
      | none => rw [ha] at h; cases h
      | some ra =>
        have ia := ih e st s t ra he ha
        rw [ha] at h
        cases ra with
        | fail s1 => cases h; exact ia
        | ok s1 u => exact (ih (.star e) st s1 u r he h).trans ia
    | plus e =>
      unfold run at h
      cases ha : run G S n e st s t with
      | none => rw [ha] at h; cases h
      | some ra =>
        have ia := ih e st s t ra he ha
        rw [ha] at h
        cases ra with
        | fail s1 => cases h; exact ia
        | ok s1 u => exact (ih (.star e) st s1 u r he h).trans ia
    | opt e =>
      unfold run at h
      cases ha : run G S n e st s t with
      | none => rw [ha] at h; cases h
      | some ra =>
        have ia := ih e st s t ra he ha
        rw [ha] at h
        cases ra <;> cases h <;> exact ia
    | andP e =>
      unfold run at h
      cases ha : run G S n e st s t with
      | none => rw [ha] at h; cases h
      | some ra =>
        have ia := ih e st s t ra he ha
        rw [ha] at h
        cases ra <;> cases h <;> exact hrestore _ _ ia.symm
    | notP e =>
      unfold run at h
      cases ha : run G S n e st s t with
      | none => rw [ha] at h; cases h
      | some ra =>
        have ia := ih e st s t ra he ha
        rw [ha] at h
        cases ra <;> cases h <;> exact hrestore _ _ ia.symm
    | act id e =>
      simp only [quiet, Bool.and_eq_true, Bool.not_eq_true'] at he
      unfold run at h
      cases ha : run G S n e st s t with
      | none => rw [ha] at h; cases h
      | some ra =>
        have ia := ih e st s t ra he.1 ha
        rw [ha] at h
        cases ra with
        | fail s1 => cases h; exact ia
        | ok s1 u => cases h; exact (hact id s1 t u (by simpa using he.2)).trans ia
    | scope e =>
      unfold run at h
      cases ha : run G S n e t s t with
      | none => rw [ha] at h; cases h
      | some ra =>
        have ia := ih e t s t ra he ha
        rw [ha] at h
        cases ra with
        | fail s1 => cases h; exact hrestore _ _ ia.symm
        | ok s1 u => cases h; exact ia

end
end Peg
end Verif
