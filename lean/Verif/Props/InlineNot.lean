import Verif.Props.InlineMarks
import Verif.Props.ListParse

/-!
# C65, continued — Where a single mark is text
-/
namespace Verif
namespace C65
open Peg Grammar Actions
open C64 (ok_seq ok_act ok_scope ok_pred)

variable {σ : Type} {S : Sem σ} {f : σ → Option Char}

/-- The rules for quoted texts with one mark: `*`, `_`, `` ` `` and `#`. -/
def singles : List (Nat × Nat × Nat) := [(R.SingleQuoteBoldText, R.SingleQuoteBoldTextStartDelimiter, R.SingleQuoteBoldTextEndDelimiter),
  (R.SingleQuoteItalicText, R.SingleQuoteItalicTextStartDelimiter, R.SingleQuoteItalicTextEndDelimiter),
  (R.SingleQuoteMonospaceText, R.SingleQuoteMonospaceTextStartDelimiter, R.SingleQuoteMonospaceTextEndDelimiter),
  (R.SingleQuoteMarkedText, R.SingleQuoteMarkedTextStartDelimiter, R.SingleQuoteMarkedTextEndDelimiter)]

/-- Looking for quotation marks does not change what is tracked. -/
theorem quotation_keeps (hT : Tracks S f) {st t u : Text} {s s' : σ} (h : Eval grammar S (.notP (.rule R.QuotationMark)) st s t (.ok s' u)) : f s' = f s := by
  obtain ⟨n, h⟩ := h
  refine run_keeps (G := grammar) (S := S) f tracking (fun i => [R.QuotationMark, R.SingleQuoteMonospaceTextStartDelimiter, R.SingleQuoteMonospaceTextEndDelimiter, R.Alphanum].contains i)
    (fun i hi => ?_) (fun id s st t _ => hT.pred id s st t) (fun id s st t _ => hT.state id s st t) (fun id s t u hid => hT.act id s t u hid)
    (fun a b hab => (hT.restore a b).trans hab.symm) n _ st s t _ (by decide) h
  simp only [List.contains_iff_mem, List.mem_cons, List.not_mem_nil, or_false] at hi
  rcases hi with rfl | rfl | rfl | rfl <;> decide

theorem lit_state {l : List Char} {st t u : Text} {s s' : σ} (h : Eval grammar S (.lit l) st s t (.ok s' u)) : s' = s := by
  have := eval_lit.mp h
  cases hm : matchLit l t with
  | none => rw [hm] at this; cases this
  | some w => rw [hm] at this; cases this; rfl

/-- **C65**: after a letter, a number, `!`, `,`, `;` or `}` a single mark opens nothing. -/
theorem opens_nothing (hT : Tracks S f) {s : σ} {c : Char} (hs : f s = some c) (hc : S.letter c = true ∨ S.number c = true ∨ c ∈ ['!', ',', ';', '}']) :
    ∀ k ∈ singles, ∀ st t q, Eval grammar S (.rule k.1) st s t q → q.rest = none := by
  have hno : quoteAllowed S.letter S.number c = false := by
    unfold quoteAllowed
    rcases hc with h | h | h
    · simp [h]
    · simp [h]
    · simp only [List.mem_cons, List.not_mem_nil, or_false] at h
      rcases h with rfl | rfl | rfl | rfl <;> simp
  have key : ∀ id ∈ [313, 324, 335, 346], ∀ (d : Char) (e : Exp) st t s' u, ¬ Eval grammar S (.scope (.seq (.lit [d]) (.seq (.pred id) e))) st s t (.ok s' u) := by
    intro id hid d e st t s' u h
    obtain ⟨s1, t1, h1, h2⟩ := ok_seq (ok_scope h)
    obtain ⟨s2, t2, h3, _⟩ := ok_seq h2
    rw [lit_state h1] at h3
    have := (ok_pred h3).1
    rw [hT.opens id s _ _ hid, hs] at this
    rw [show ((some c).map (quoteAllowed S.letter S.number)).getD true = quoteAllowed S.letter S.number c from rfl, hno] at this
    cases this
  intro k hk st t q hq
  cases q with
  | fail s' => rfl
  | ok s' u =>
    exfalso
    simp only [singles, List.mem_cons, List.not_mem_nil, or_false] at hk
    rcases hk with rfl | rfl | rfl | rfl <;>
      · obtain ⟨_, h⟩ := ok_act (eval_rule.mp hq)
        obtain ⟨_, _, h, _⟩ := ok_seq (ok_scope h)
        exact key _ (by decide) _ _ _ _ _ _ (eval_rule.mp h)

/-- **C65**: after a space, a single mark closes nothing. -/
theorem closes_nothing (hT : Tracks S f) {s : σ} {c : Char} (hs : f s = some c) (hc : c ∈ [' ', '\t', '\n', '\r']) :
    ∀ k ∈ singles, ∀ st t q, Eval grammar S (.rule k.2.2) st s t q → q.rest = none := by
  have hno : spaceByte c = true := by
    simp only [List.mem_cons, List.not_mem_nil, or_false] at hc
    rcases hc with rfl | rfl | rfl | rfl <;> decide
  have key : ∀ id ∈ [314, 325, 336, 347], ∀ (e : Exp) st t s1 s' u, f s1 = some c → ¬ Eval grammar S (.seq (.pred id) e) st s1 t (.ok s' u) := by
    intro id hid e st t s1 s' u hs1 h
    obtain ⟨s2, t2, h3, _⟩ := ok_seq h
    have := (ok_pred h3).1
    rw [hT.closes id s1 _ _ hid, hs1] at this
    rw [show ((some c).map spaceByte).getD false = spaceByte c from rfl, hno] at this
    cases this
  have look : ∀ (l : List Char) st t s1 u, Eval grammar S (.notP (.lit l)) st s t (.ok s1 u) → f s1 = some c := by
    intro l st t s1 u h
    rcases eval_notP.mp h with ⟨s2, h1, h2⟩ | ⟨s2, v, h1, h2⟩
    · cases h2
      have : s2 = s := by
        have := eval_lit.mp h1
        cases hm : matchLit l t with
        | none => rw [hm] at this; cases this; rfl
        | some w => rw [hm] at this; cases this
      rw [this, hT.restore s s]
      exact hs
    · cases h2
  intro k hk st t q hq
  cases q with
  | fail s' => rfl
  | ok s' u =>
    exfalso
    simp only [singles, List.mem_cons, List.not_mem_nil, or_false] at hk
    have three : ∀ id ∈ [314, 325, 336, 347], ∀ (d : Char) (l : List Char) (e : Exp) st t s' u,
        ¬ Eval grammar S (.seq (.lit [d]) (.seq (.notP (.lit l)) (.seq (.pred id) e))) st s t (.ok s' u) := by
      intro id hid d l e st t s' u h
      obtain ⟨s1, t1, h1, h⟩ := ok_seq h
      rw [lit_state h1] at h
      obtain ⟨s2, t2, h2, h⟩ := ok_seq h
      exact key id hid _ _ _ _ _ _ (look _ _ _ _ _ h2) h
    rcases hk with rfl | rfl | rfl | rfl
    · exact three 314 (by decide) _ _ _ _ _ _ _ (ok_scope (eval_rule.mp hq))
    · exact three 325 (by decide) _ _ _ _ _ _ _ (ok_scope (eval_rule.mp hq))
    · obtain ⟨s1, t1, h1, h⟩ := ok_seq (ok_scope (eval_rule.mp hq))
      obtain ⟨s2, t2, h2, h⟩ := ok_seq h
      exact key 336 (by decide) _ _ _ _ _ _ (by rw [lit_state h2, quotation_keeps hT h1]; exact hs) h
    · exact three 347 (by decide) _ _ _ _ _ _ _ (ok_scope (eval_rule.mp hq))

end C65
end Verif
