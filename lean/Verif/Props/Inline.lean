import Verif.Proofs.PegInv
import Verif.Props.Termination

/-!
# C47 — No inline content is rejected

Whatever characters a paragraph, a title, a quoted text or an attribute value has, its inline content is parsed: the
parser takes all of it. And the code that tracks the last character of each inline element always has one.
-/
namespace Verif
namespace C47
open Peg Grammar

variable {σ : Type} {S : Sem σ}

/-- On every text that is not empty, one of the alternatives applies. -/
theorem newline_or_char (c : Char) (t : Text) :
    Sure grammar S (.rule R.Newline) (c :: t) ∨ Sure grammar S (.rule R.AnyChar) (c :: t) := by
  cases h : isEol c with
  | false => exact .inr (yields_AnyChar h).sure
  | true =>
    left
    simp only [isEol, Bool.or_eq_true, beq_iff_eq] at h
    rcases h with rfl | rfl
    · exact yields_Newline.sure
    · cases t with
      | nil => exact yields_Newline.sure
      | cons d t =>
        by_cases hd : d = '\n'
        · subst hd; exact yields_Newline.sure
        · refine (yields_Newline.to (o' := some (d :: t)) ?_).sure
          rw [newline_lit]; simp [matchLit, Ne.symm hd]

/-- An iteration whose body never fails on a nonempty text, and never succeeds at the end, takes everything. -/
theorem star_takes_all (hS : C45.ChecksProgress S) {e : Exp} (h : ∀ c t, Sure grammar S e (c :: t))
    (h0 : Never grammar S e [])
    (hp : ∀ n st s t s' u, run grammar S n e st s t = some (.ok s' u) → u.length < t.length)  :
    ∀ t : Text, Yields grammar S (.star e) t (some []) := by
  intro t
  induction hl : t.length using Nat.strongRecOn generalizing t with
  | ind len ih =>
    intro st s r hr
    rcases eval_star.mp hr with ⟨s1, h1, rfl⟩ | ⟨s1, v, h1, h2⟩
    · cases t with
      | nil => rfl
      | cons c t => cases h c t _ _ _ h1
    · obtain ⟨n, h1⟩ := h1
      exact ih v.length (by have := hp _ _ _ _ _ _ h1; omega) v rfl _ _ _ h2

/-- The elements of a group: what is between `NotEOF` and the end. -/
theorem group_takes_all (hS : C45.ChecksProgress S) {e : Exp} {i : Nat} (he : starsOk cert (.plus e) = true)
    (hx : cert.exempt.contains e = false)
    (h : ∀ c t, Sure grammar S e (c :: t)) (c : Char) (t : Text) :
    Yields grammar S (.act i (.scope (.seq (.plus e) (.rule R.EOF)))) (c :: t) (some []) := by
  have hn : (an0 cert e).1 = false ∧ (an1 cert e).1 = false := by
    simp only [starsOk, hx, Bool.or_false, Bool.and_eq_true, Bool.not_eq_true'] at he
    exact he.2
  have h0 : Never grammar S e [] := by
    intro st s r hr
    cases ho : r.rest with
    | none => rfl
    | some u =>
      obtain ⟨n, hr⟩ := hr
      have := (fact cert grammar S valid.toSound hS n e st s [] r hr).may0 rfl (by rw [ho]; rfl)
      rw [hn.1] at this; cases this
  have hp : ∀ n st s t s' u, run grammar S n e st s t = some (.ok s' u) → u.length < t.length := by
    intro n st s t s' u hr
    refine star_progress cert grammar S valid hS ?_ (by rw [hn.1, hn.2]; rfl) hr
    intro e he n st s t s' u h
    rw [List.mem_singleton.mp he] at h
    exact cellLine_consumes h
  refine yields_act (yields_scope (yields_seq (u := []) ?_ yields_EOF_nil))
  intro st s r hr
  rcases eval_plus.mp hr with ⟨s1, h1, rfl⟩ | ⟨s1, v, h1, h2⟩
  · cases h c t _ _ _ h1
  · exact star_takes_all hS h h0 hp v _ _ _ h2

theorem normal_group (hS : C45.ChecksProgress S) (c : Char) (t : Text) :
    Yields grammar S (.rule R.NormalGroup) (c :: t) (some []) := by
  refine yields_rule (group_takes_all (i := 371) hS (by decide +kernel) (by decide +kernel) (fun c t => ?_) c t)
  refine sure_act (sure_scope (sure_seq yields_NotEOF ?_))
  rcases newline_or_char (S := S) c t with h | h
  · exact sure_alt_right (sure_alt_right (sure_alt_right (sure_alt_right (sure_alt_right (sure_alt_left h)))))
  · exact sure_alt_right (sure_alt_right (sure_alt_right (sure_alt_right (sure_alt_right (sure_alt_right
      (sure_alt_right (sure_alt_right (sure_alt_right (sure_alt_right (sure_alt_right (sure_alt_right (sure_alt_right
      (sure_alt_right h)))))))))))))

theorem structured_value (hS : C45.ChecksProgress S) (c : Char) (t : Text) :
    Yields grammar S (.rule R.AttributeStructuredValue) (c :: t) (some []) := by
  refine yields_rule (group_takes_all (i := 372) hS (by decide +kernel) (by decide +kernel) (fun c t => ?_) c t)
  refine sure_rule (sure_act (sure_scope (sure_seq yields_NotEOF ?_)))
  rcases newline_or_char (S := S) c t with h | h
  · exact sure_alt_right (sure_alt_right (sure_alt_right (sure_alt_right (sure_alt_right (sure_alt_right
      (sure_alt_right (sure_alt_right (sure_alt_left h))))))))
  · exact sure_alt_right (sure_alt_right (sure_alt_right (sure_alt_right (sure_alt_right (sure_alt_right
      (sure_alt_right (sure_alt_right (sure_alt_right h))))))))

/-- **C47**: the two rules used for inline content — paragraphs, terms of lists, verbatim blocks, cells of tables
(`NormalGroup`), titles and texts of links (`AttributeStructuredValue`) — succeed on every nonempty text and take
all of it, whatever substitutions are enabled, attributes set and macros defined. (Empty contents are not
parsed: document_processing_apply_substitutions.go:621-623.) -/
theorem inline_accepted (S : Sem σ) (hS : C45.ChecksProgress S) (s : σ) (t : Text) (ht : t ≠ []) (i : Nat)
    (hi : i = R.NormalGroup ∨ i = R.AttributeStructuredValue) :
    ∃ n s', run grammar S n (.rule i) t s t = some (.ok s' []) := by
  obtain ⟨n, r, h, _⟩ := C45.parse_ends S hS i s t
  cases t with
  | nil => exact absurd rfl ht
  | cons c t =>
    have hr : r.rest = some [] := by
      rcases hi with rfl | rfl
      · exact normal_group hS c t _ _ _ ⟨n, h⟩
      · exact structured_value hS c t _ _ _ ⟨n, h⟩
    cases r with
    | fail s' => cases hr
    | ok s' u => cases hr; exact ⟨n, s', h⟩

/-- On the empty text both fail: the check of line 621 is needed. -/
theorem empty_rejected (S : Sem σ) (i : Nat) (hi : i = R.NormalGroup ∨ i = R.AttributeStructuredValue) :
    Never grammar S (.rule i) [] := by
  rcases hi with rfl | rfl
  · exact yields_rule (yields_act (yields_scope (never_seq (never_plus (yields_act (yields_scope (never_seq never_NotEOF)))))))
  · exact yields_rule (yields_act (yields_scope (never_seq (never_plus (yields_rule (yields_act (yields_scope (never_seq
      never_NotEOF))))))))

/-- The actions that call `c.trackElement(element)` (parser.peg:1357, 1889, 1933, 1978, 2023, 2068, 2115, 2160, 2204,
2326, 2365, 2391), which reads `c.text[len(c.text)-1]` (parser_ext.go:121). -/
def tracking : List Nat := [225, 312, 318, 323, 329, 334, 340, 345, 351, 367, 370, 373]

/-- The same code with a flag: an action that tracks an element sees an empty text. -/
def monitor (S : Sem σ) : Sem (σ × Bool) where
  letter := S.letter
  number := S.number
  pred id s st t := ((S.pred id s.1 st t).1, (S.pred id s.1 st t).2, s.2)
  state id s st t := (S.state id s.1 st t, s.2)
  act id s t u := (S.act id s.1 t u, s.2 || (tracking.contains id && decide (t.length = u.length)))
  restore a b := (S.restore a.1 b.1, a.2 || b.2)

/-- **C47**: no index out of range when an inline element is tracked: from every rule and on every text, the text of the element is not
empty. -/
theorem tracked_not_empty (S : Sem σ) (hS : C45.ChecksProgress S) (i : Nat) (s : σ) (t : Text) {n : Nat}
    {r : Res (σ × Bool)} (h : run grammar (monitor S) n (.rule i) t (s, false) t = some r) : r.st.2 = false := by
  have hG : ∀ i, actsOk cert tracking (grammar i) = true := by
    have hall : (List.range 338).all (fun i => actsOk cert tracking (grammar i)) = true := by decide +kernel
    intro i
    by_cases hi : i < 338
    · exact List.all_eq_true.mp hall i (List.mem_range.mpr hi)
    · rw [grammar_none hi]; rfl
  refine run_inv cert grammar (monitor S) valid.toSound ?_ tracking (fun s => s.2 = false) hG ?_ ?_ ?_ ?_ n (.rule i) t _ t r rfl
    rfl h
  · exact fun id hid s st t hp => hS id hid s.1 st t hp
  · exact fun _ _ _ _ h => h
  · exact fun _ _ _ _ h => h
  · intro a b ha hb
    show (a.2 || b.2) = false
    rw [ha, hb]; rfl
  · intro id s t u hs hlt
    show (s.2 || (tracking.contains id && decide (t.length = u.length))) = false
    rw [hs, Bool.false_or]
    cases hc : tracking.contains id with
    | false => rfl
    | true =>
      have := hlt (by simpa using hc)
      rw [Bool.true_and]
      exact decide_eq_false (by omega)

/-- The hypothesis is met, and a concrete run. -/
example : C45.ChecksProgress (monitor C45.someSem) := fun _ _ _ _ _ h => of_decide_eq_true h

example : ∃ s', run grammar (monitor C45.someSem) 60 (.rule R.NormalGroup) ['a', ' ', '<', '\n', '*'] (0, false)
    ['a', ' ', '<', '\n', '*'] = some (.ok (s', false) []) := ⟨_, rfl⟩

end C47
end Verif
