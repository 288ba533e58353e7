import Verif.Proofs.Keeps
import Verif.Proofs.Values

/-!
Two semantics that agree on the states in which a view of the state has some value, when the view does not change.
-/
namespace Verif
namespace Peg
open Walk (Any)

section
variable {σ α : Type} {G : Nat → Exp} {S : Sem σ} {A : Code σ}

/-- The semantics with other answers for the check `k`. -/
def Sem.answer (S : Sem σ) (k : Nat) (b : Bool) : Sem σ :=
  { S with pred := fun id s st t => if id = k then (b, (S.pred id s st t).2) else S.pred id s st t }

theorem answer_pred {k : Nat} {b : Bool} (s : σ) (st t : Text) : ((S.answer k b).pred k s st t).1 = b := by simp [Sem.answer]

theorem answer_other {k id : Nat} {b : Bool} (h : id ≠ k) (s : σ) (st t : Text) : (S.answer k b).pred id s st t = S.pred id s st t := by
  simp [Sem.answer, h]

theorem answer_state {k id : Nat} {b : Bool} (s : σ) (st t : Text) : ((S.answer k b).pred id s st t).2 = (S.pred id s st t).2 := by
  simp only [Sem.answer]
  split <;> rfl

/-- In the states where the check has this answer, runs are the same. -/
theorem answer_run (k : Nat) (b : Bool) (f : σ → α) (a : α) (hk : ∀ s st t, f s = a → (S.pred k s st t).1 = b) (bad : List Nat) (tab : Nat → Bool)
    (hG : ∀ i, tab i = true → quiet bad tab (G i) = true)
    (hpred : ∀ id s st t, id ∉ bad → f (S.pred id s st t).2 = f s)
    (hstate : ∀ id s st t, id ∉ bad → f (S.state id s st t) = f s)
    (hact : ∀ id s t u, id ∉ bad → f (S.act id s t u) = f s)
    (hrestore : ∀ a b, f a = f b → f (S.restore a b) = f a) :
    ∀ (n : Nat) (e : Exp) (st : Text) (s : σ) (t : Text), quiet bad tab e = true → f s = a →
      runV G (S.answer k b) A n e st s t = runV G S A n e st s t := by
  have keep : ∀ {n : Nat} {e : Exp} {st : Text} {s : σ} {t : Text} {r : ResV σ}, quiet bad tab e = true → f s = a →
      runV G S A n e st s t = some r → f r.erase.st = a := by
    intro n e st s t r he hs h
    have := runV_erase (A := A) G S n e st s t
    rw [h] at this
    exact (run_keeps f bad tab hG hpred hstate hact hrestore n e st s t _ he this.symm).trans hs
  intro n
  induction n with
  | zero => intros; rfl
  | succ n ih =>
    intro e st s t he hs
    cases e with
    | eps => rfl
    | any => rfl
    | lit l => rfl
    | litI l => rfl
    | cls c => rfl
    | state id => rfl
    | pred id =>
      by_cases h : id = k
      · subst h
        have hb := hk s st t hs
        unfold runV
        have e1 : (S.answer id b).pred id s st t = S.pred id s st t := by
          rw [show (S.answer id b).pred id s st t = (b, (S.pred id s st t).2) by simp [Sem.answer], ← hb]
        rw [e1]
      · unfold runV
        rw [answer_other h]
    | rule i => exact ih (G i) t s t (hG i he) hs
    | seq x y =>
      simp only [quiet, Bool.and_eq_true] at he
      have h1 := ih x st s t he.1 hs
      conv => lhs; unfold runV
      conv => rhs; unfold runV
      rw [h1]
      cases hx : runV G S A n x st s t with
      | none => rfl
      | some q =>
        cases q with
        | fail s1 => rfl
        | ok s1 v u =>
          dsimp only
          rw [ih y st s1 u he.2 (keep he.1 hs hx)]
    | alt x y =>
      simp only [quiet, Bool.and_eq_true] at he
      have h1 := ih x st s t he.1 hs
      conv => lhs; unfold runV
      conv => rhs; unfold runV
      rw [h1]
      cases hx : runV G S A n x st s t with
      | none => rfl
      | some q =>
        cases q with
        | fail s1 => exact ih y st _ t he.2 ((hrestore s s1 (hs.trans (keep he.1 hs hx).symm)).trans hs)
        | ok s1 v u => rfl
    | star x =>
      have h1 := ih x st s t he hs
      conv => lhs; unfold runV
      conv => rhs; unfold runV
      rw [h1]
      cases hx : runV G S A n x st s t with
      | none => rfl
      | some q =>
        cases q with
        | fail s1 => rfl
        | ok s1 v u =>
          dsimp only
          rw [ih (.star x) st s1 u he (keep (e := x) he hs hx)]
    | plus x =>
      have h1 := ih x st s t he hs
      conv => lhs; unfold runV
      conv => rhs; unfold runV
      rw [h1]
      cases hx : runV G S A n x st s t with
      | none => rfl
      | some q =>
        cases q with
        | fail s1 => rfl
        | ok s1 v u =>
          dsimp only
          rw [ih (.star x) st s1 u he (keep (e := x) he hs hx)]
    | opt x => have h1 := ih x st s t he hs; unfold runV; rw [h1]
    | andP x => have h1 := ih x st s t he hs; unfold runV; rw [h1]; rfl
    | notP x => have h1 := ih x st s t he hs; unfold runV; rw [h1]; rfl
    | act id x =>
      have he' : quiet bad tab x = true := by
        simp only [quiet, Bool.and_eq_true] at he
        exact he.1
      have h1 := ih x st s t he' hs
      unfold runV; rw [h1]; rfl
    | scope x => have h1 := ih x t s t he hs; unfold runV; rw [h1]; rfl

end
end Peg
end Verif
