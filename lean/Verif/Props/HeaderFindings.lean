import Verif.Props.HeadedSample

/-!
# C66 — What is not read as one would expect
-/
namespace Verif
namespace C66
open Peg Grammar Actions Headed
open C59 (Code Cut alnum)
open C64 (no_lit)
open Walk (Any)

variable {σ : Type} {S : Sem σ} {A : Peg.Code σ} {z r : Text}

/-- **C66** (finding): a number of a revision has to have two characters at least: in `v1, 2020` no number is found, and all of it is taken for the date. -/
theorem finding_one_digit (hA : Obeys A) (hz : Cut z r) {c : Char} (hc : c.isDigit = true) {d : Text} (hd : ∀ c ∈ d, c ∉ [':', '\r', '\n']) (ht : Trimmed d) (hne : d ≠ []) {st : Text} :
    Exactly grammar S A st (.rule R.DocumentRevision) ('v' :: c :: ", ".toList ++ d ++ z) [.revision [] ('v' :: c :: ", ".toList ++ d) []] r := by
  obtain ⟨ve, he⟩ := C62.eolV (S := S) hA hz
  show Exactly grammar S A st (.rule R.DocumentRevision) ('v' :: c :: ',' :: ' ' :: (d ++ z)) [.revision [] ('v' :: c :: ',' :: ' ' :: d) []] r
  obtain ⟨vs, hs⟩ := spaces0 (S := S) hA (st := 'v' :: c :: ',' :: ' ' :: (d ++ z)) (x := 'v' :: c :: ',' :: ' ' :: (d ++ z)) (fun e he => by cases he; decide)
  have hnot : Never grammar S (.lit [':']) ('v' :: c :: ',' :: ' ' :: (d ++ z)) := no_lit (C64.lit_head (by decide))
  have hx : Stops [':', '\r', '\n'] z := by
    have := remark_stops hz ([] : Text)
    exact this
  have hnum : Never grammar S (.rule R.DocumentRevisionNumber) ('v' :: c :: ',' :: ' ' :: (d ++ z)) := by
    have hcls : Yields grammar S (.cls ⟨false, [], [('0', '9')], false, false⟩) (c :: ',' :: ' ' :: (d ++ z)) (some (',' :: ' ' :: (d ++ z))) :=
      yields_cls (by rw [has_digit]; exact hc)
    have hrun : Never grammar S (.plus (.cls (but [':', ',', '\r', '\n']))) (',' :: ' ' :: (d ++ z)) := never_run (fun e he => by cases he; decide)
    have hv : Yields grammar S (.litI ['v']) ('v' :: c :: ',' :: ' ' :: (d ++ z)) (some (c :: ',' :: ' ' :: (d ++ z))) := yields_litI.to rfl
    refine yields_rule (yields_alt_right (yields_act (yields_scope ?_)) (yields_act (yields_scope ?_)))
    · exact yields_seq hv (yields_seq hcls hrun)
    · exact yields_seq (yields_opt_some hv) (yields_seq hcls (never_seq hrun))
  refine exactly_rule (exactly_act (exactly_scope (exactly_seq hs (exactly_seq (exactly_notP hnot) (exactly_seq (u := z) (v := [.revision [] ('v' :: c :: ',' :: ' ' :: d) []]) ?_ (he _)))))
    (fun s => hA 191 s _ _ _ rfl))
  obtain ⟨v1, v2, m, h1, h2, h3⟩ := remark_rule (S := S) hA hz (w := []) (fun _ h => nomatch h) ⟨(fun _ h => nomatch h), (fun _ h => nomatch h)⟩ (st := 'v' :: c :: ',' :: ' ' :: (d ++ z))
  refine exactly_alt_right (yields_act (yields_scope (never_seq hnum))) (exactly_act (exactly_scope (exactly_seq
      (exactly_rule (run_text hA (w := 'v' :: c :: ',' :: ' ' :: d) (fun _ _ => rfl) (fun h => nomatch h) (fun e hm => ?_) hx)) (exactly_seq h1 h2))) (fun s => hA 190 s _ _ _ ?_))
  · simp only [List.mem_cons] at hm
    rcases hm with rfl | rfl | rfl | rfl | hm
    · decide
    · have := digit_not e hc
      intro h; refine this ?_
      simp only [List.mem_cons, List.not_mem_nil, or_false] at h ⊢
      rcases h with h | h | h <;> simp [h]
    · decide
    · decide
    · exact hd e hm
  · show some (Any.revision [] (trimSpace ('v' :: c :: ',' :: ' ' :: d)) (trimSpace (trimPrefix ':' (textOf v2)))) = _
    rw [h3]
    rw [trim_id (t := 'v' :: c :: ',' :: ' ' :: d) ⟨fun e he => by cases he; decide, fun e he => ?_⟩]
    refine ht.2 e ?_
    obtain ⟨a, d', rfl⟩ := List.exists_cons_of_ne_nil hne
    rw [show 'v' :: c :: ',' :: ' ' :: a :: d' = ['v', c, ',', ' '] ++ (a :: d') from rfl, List.getLast?_append_of_ne_nil _ (by simp)] at he
    exact he

/-- With two digits, it is read as a number and a date. -/
theorem two_digits (hS : Code S) (hA : Obeys A) (hz : Cut z r) {st : Text} :
    Exactly grammar S A st (.rule R.DocumentRevision) ("v10, 2020".toList ++ z) [.revision "10".toList "2020".toList []] r := by
  have h := revision_rule hS hA hz (v := ⟨"v".toList, "10".toList, "2020".toList, []⟩) ⟨by decide +kernel, by decide +kernel, by decide +kernel, by decide +kernel, trimmed_of (by decide +kernel),
    by decide +kernel, fun h => absurd h (by decide +kernel), by decide +kernel, trimmed_of (by decide +kernel), (fun _ h => nomatch h), trimmed_of rfl⟩ (st := st)
  exact h

/-- With one digit, all of it is the date. -/
example (hA : Obeys A) (hz : Cut z r) {st : Text} :
    Exactly grammar S A st (.rule R.DocumentRevision) ("v1, 2020".toList ++ z) [.revision [] "v1, 2020".toList []] r :=
  finding_one_digit hA hz (c := '1') (by decide) (d := "2020".toList) (by decide +kernel) (trimmed_of (by decide +kernel)) (by decide +kernel)

/-- **C66** (finding): the name of an author is put on the page as it is written (`text_to_page`): `&` and `>` are not written as entities. -/
theorem finding_name_raw : (⟨"A&B>".toList, [], [], []⟩ : Headed.Author).html false 0 =
    "<span id=\"author\" class=\"author\">A&B></span><br>".toList ∧ (⟨"A&B>".toList, [], [], []⟩ : Headed.Author).Ok := by
  refine ⟨by decide +kernel, by decide, by unfold Word; decide +kernel, (fun _ h => nomatch h), (fun _ h => nomatch h), fun h => absurd rfl h, fun _ => (fun _ h => nomatch h), trimmed_of rfl, (fun _ h => nomatch h), trimmed_of rfl⟩

end C66
end Verif
