import Verif.Proofs.GrammarCert

/-!
The kernel checks the termination certificate of the whole grammar.
-/
namespace Verif
namespace Grammar
open Peg

/-- The part that is repeated in `MultilineTableCellContent` (parser.peg:2641-2649). -/
def cellLine : Exp :=
  .act 416 (.scope (.seq (.notP (.rule R.TableEndDelimiter)) (.seq (.notP (.rule R.BlankLine)) (.seq
    (.notP (.scope (.seq (.opt (.rule R.TableCellFormat)) (.lit ['|'])))) (.seq (.act 415 (.star (.cls ⟨true,
    ['|', '\r', '\n'], [], false, false⟩))) (.opt (.rule R.EOL)))))))

/-- The certificate. -/
def cert : Cert where
  null0 i := null0.contains i || decide (338 ≤ i)
  null1 i := null1.contains i || decide (338 ≤ i)
  sure0 i := sure0.contains i
  sure1 i := sure1.contains i
  rank i := rankTable.getD i 0
  top := 8
  guards := [47, 85, 181, 428]
  exempt := [cellLine]

theorem rules_length : rules.length = 338 := by decide +kernel

theorem rules_ok : (List.range 338).all (fun i => nullOk cert i (grammar i) && ruleOk cert i (grammar i)) = true := by decide +kernel

theorem lists_bounded : (null0 ++ null1 ++ sure0 ++ sure1).all (fun i => decide (i < 338)) = true := by decide +kernel

/-- Beyond the last rule. -/
theorem grammar_none {i : Nat} (h : ¬ i < 338) : grammar i = .eps := by
  unfold grammar
  rw [List.getD_eq_getElem?_getD, List.getElem?_eq_none (by rw [rules_length]; omega)]; rfl

theorem sure_none {i : Nat} (h : ¬ i < 338) : null0.contains i = false ∧ null1.contains i = false ∧
    sure0.contains i = false ∧ sure1.contains i = false := by
  have hb := List.all_eq_true.mp lists_bounded
  have : ∀ l : List Nat, (∀ x ∈ l, x ∈ null0 ++ null1 ++ sure0 ++ sure1) → l.contains i = false := by
    intro l hl
    cases hc : l.contains i with
    | false => rfl
    | true =>
      have := hb i (hl i (by simpa using hc))
      exact absurd (of_decide_eq_true this) h
  refine ⟨this _ ?_, this _ ?_, this _ ?_, this _ ?_⟩ <;> intro x hx <;>
    simp only [List.mem_append, hx, true_or, or_true]

theorem valid : Valid cert grammar where
  null i := by
    by_cases h : i < 338
    · exact (Bool.and_eq_true_iff.mp (List.all_eq_true.mp rules_ok i (List.mem_range.mpr h))).1
    · rw [grammar_none h]
      simp only [nullOk, an0, an1, cert, sure_none h, show 338 ≤ i by omega]
      simp
  rule i := by
    by_cases h : i < 338
    · exact (Bool.and_eq_true_iff.mp (List.all_eq_true.mp rules_ok i (List.mem_range.mpr h))).2
    · have hr : rankTable.getD i 0 = 0 := by
        rw [List.getD_eq_getElem?_getD, List.getElem?_eq_none (by
          have : rankTable.length = 338 := by decide +kernel
          omega)]; rfl
      rw [grammar_none h]
      simp only [ruleOk, starsOk, leftOk, cert, hr]
      simp

/-- The same tables without any assumption on the predicates. -/
def weak : Cert where
  null0 i := (weak0.contains i || null0.contains i) || decide (338 ≤ i)
  null1 i := (weak1.contains i || null1.contains i) || decide (338 ≤ i)
  sure0 i := sure0.contains i
  sure1 i := sure1.contains i
  rank _ := 0
  top := 1
  guards := []
  exempt := []

theorem weak_ok : (List.range 338).all (fun i => nullOk weak i (grammar i)) = true := by decide +kernel

theorem weak_sound : Sound weak grammar where
  null i := by
    by_cases h : i < 338
    · exact List.all_eq_true.mp weak_ok i (List.mem_range.mpr h)
    · rw [grammar_none h]
      simp only [nullOk, an0, an1, weak, sure_none h, show 338 ≤ i by omega]
      simp

end Grammar
end Verif
