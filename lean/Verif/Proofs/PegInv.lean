import Verif.Proofs.Eval

/-!
Invariants of the state of the parser, with what the analysis says about the texts that actions see.
-/
namespace Verif
namespace Peg

/-- The actions of `ids` are on expressions that consume something. -/
def actsOk (C : Cert) (ids : List Nat) : Exp → Bool
  | .seq a b => actsOk C ids a && actsOk C ids b
  | .alt a b => actsOk C ids a && actsOk C ids b
  | .star e => actsOk C ids e
  | .plus e => actsOk C ids e
  | .opt e => actsOk C ids e
  | .andP e => actsOk C ids e
  | .notP e => actsOk C ids e
  | .act id e => actsOk C ids e && (!ids.contains id || (!(an0 C e).1 && !(an1 C e).1))
  | .scope e => actsOk C ids e
  | _ => true

/-- The state of a result. -/
def Res.st {σ : Type} : Res σ → σ
  | .fail s => s
  | .ok s _ => s

section
variable {σ : Type} (C : Cert) (G : Nat → Exp) (S : Sem σ)

theorem run_inv (hC : Sound C G) (hS : Progress C S) (ids : List Nat) (Inv : σ → Prop)
    (hG : ∀ i, actsOk C ids (G i) = true)
    (hpred : ∀ id s st t, Inv s → Inv (S.pred id s st t).2)
    (hstate : ∀ id s st t, Inv s → Inv (S.state id s st t))
    (hrestore : ∀ a b, Inv a → Inv b → Inv (S.restore a b))
    (hact : ∀ id s t u, Inv s → (id ∈ ids → u.length < t.length) → Inv (S.act id s t u)) :
    ∀ (n : Nat) (e : Exp) (st : Text) (s : σ) (t : Text) (r : Res σ), actsOk C ids e = true → Inv s →
      run G S n e st s t = some r → Inv r.st := by
  intro n
  induction n with
  | zero => intro e st s t r _ _ h; cases h
  | succ n ih =>
    intro e st s t r he hs h
    cases e with
    | eps => cases h; exact hs
    | any => cases t <;> cases h <;> exact hs
    | lit l =>
      have := eval_lit.mp (eval_of_run h)
      rw [this]; cases matchLit l t <;> exact hs
    | litI l =>
      have := eval_litI.mp (eval_of_run h)
      rw [this]; cases matchLitI l t <;> exact hs
    | cls c =>
      cases t with
      | nil => cases h; exact hs
      | cons x t =>
        rw [eval_cls_cons.mp (eval_of_run h)]
        split <;> exact hs
    | pred id =>
      rw [eval_pred.mp (eval_of_run h)]
      have := hpred id s st t hs
      rcases hp : S.pred id s st t with ⟨b, s'⟩
      rw [hp] at this
      cases b <;> exact this
    | state id => cases h; exact hstate id s st t hs
    | rule i => exact ih (G i) t s t r (hG i) hs h
    | seq a b =>
      simp only [actsOk, Bool.and_eq_true] at he
      unfold run at h
      cases ha : run G S n a st s t with
      | none => rw [ha] at h; cases h
      | some ra =>
        have ia := ih a st s t ra he.1 hs ha
        rw [ha] at h
        cases ra with
        | fail s1 => cases h; exact ia
        | ok s1 u => exact ih b st s1 u r he.2 ia h
    | alt a b =>
      simp only [actsOk, Bool.and_eq_true] at he
      unfold run at h
      cases ha : run G S n a st s t with
      | none => rw [ha] at h; cases h
      | some ra =>
        have ia := ih a st s t ra he.1 hs ha
        rw [ha] at h
        cases ra with
        | fail s1 => exact ih b st _ t r he.2 (hrestore s s1 hs ia) h
        | ok s1 u => cases h; exact ia
    | star e =>
      unfold run at h
      cases ha : run G S n e st s t with
      | none => rw [ha] at h; cases h
      | some ra =>
        have ia := ih e st s t ra he hs ha
        rw [ha] at h
        cases ra with
        | fail s1 => cases h; exact ia
        | ok s1 u => exact ih (.star e) st s1 u r he ia h
    | plus e =>
      unfold run at h
      cases ha : run G S n e st s t with
      | none => rw [ha] at h; cases h
      | some ra =>
        have ia := ih e st s t ra he hs ha
        rw [ha] at h
        cases ra with
        | fail s1 => cases h; exact ia
        | ok s1 u => exact ih (.star e) st s1 u r he ia h
    | opt e =>
      unfold run at h
      cases ha : run G S n e st s t with
      | none => rw [ha] at h; cases h
      | some ra =>
        have ia := ih e st s t ra he hs ha
        rw [ha] at h
        cases ra <;> cases h <;> exact ia
    | andP e =>
      unfold run at h
      cases ha : run G S n e st s t with
      | none => rw [ha] at h; cases h
      | some ra =>
        have ia := ih e st s t ra he hs ha
        rw [ha] at h
        cases ra <;> cases h <;> exact hrestore _ _ hs ia
    | notP e =>
      unfold run at h
      cases ha : run G S n e st s t with
      | none => rw [ha] at h; cases h
      | some ra =>
        have ia := ih e st s t ra he hs ha
        rw [ha] at h
        cases ra <;> cases h <;> exact hrestore _ _ hs ia
    | scope e =>
      unfold run at h
      cases ha : run G S n e t s t with
      | none => rw [ha] at h; cases h
      | some ra =>
        have ia := ih e t s t ra he hs ha
        rw [ha] at h
        cases ra <;> cases h
        · exact hrestore _ _ hs ia
        · exact ia
    | act id e =>
      simp only [actsOk, Bool.and_eq_true] at he
      unfold run at h
      cases ha : run G S n e st s t with
      | none => rw [ha] at h; cases h
      | some ra =>
        have ia := ih e st s t ra he.1 hs ha
        have f := fact C G S hC hS n e st s t ra ha
        rw [ha] at h
        cases ra with
        | fail s1 => cases h; exact ia
        | ok s1 u =>
          cases h
          refine hact id s1 t u ia fun hid => ?_
          have he2 := he.2
          rw [show ids.contains id = true from by simpa using hid] at he2
          simp only [Bool.not_true, Bool.false_or, Bool.and_eq_true, Bool.not_eq_true'] at he2
          rcases Nat.lt_or_ge u.length t.length with hl | hl
          · exact hl
          · have e' : u = t := eq_of_suffix_length (f.suffix u rfl) hl
            by_cases h0 : t = []
            · exact absurd (f.may0 h0 rfl) (by simp [he2])
            · exact absurd (f.may1 h0 (by rw [e']; rfl)) (by simp [he2])

end
end Peg
end Verif
