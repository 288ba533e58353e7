import Verif.Model.Peg
import Mathlib.Tactic.Tauto

/-!
Static analysis of parsing expression grammars, and its soundness: which expressions may succeed without
consuming anything, and a criterion for termination (no left recursion, no iteration of an expression that may
succeed without consuming), with certificates given by tables.
-/
namespace Verif
namespace Peg

/-- The certificates: for each rule, whether it may succeed on the empty text, whether it may succeed without
consuming anything on other texts, whether it certainly succeeds on the empty text, on other texts, and a rank
such that rules called first have a smaller rank. `guards`: the predicates that only hold when something was consumed in their
sequence. `exempt`: expressions known to consume something when they succeed. -/
structure Cert where
  null0 : Nat → Bool
  null1 : Nat → Bool
  sure0 : Nat → Bool
  sure1 : Nat → Bool
  rank : Nat → Nat
  top : Nat
  guards : List Nat
  exempt : List Exp

/-- The sequence contains one of the predicates that check that something was consumed. -/
def guarded (C : Cert) : Exp → Bool
  | .seq a b => guarded C a || guarded C b
  | .pred id => C.guards.contains id
  | .act _ e => guarded C e
  | _ => false

/-- On the empty text: may succeed, certainly succeeds. -/
def an0 (C : Cert) : Exp → Bool × Bool
  | .eps => (true, true)
  | .any => (false, false)
  | .lit s => (s.all (· == '\uFFFD'), s.all (· == '\uFFFD'))
  | .litI s => (s.isEmpty, s.isEmpty)
  | .cls _ => (false, false)
  | .seq a b => ((an0 C a).1 && (an0 C b).1, (an0 C a).2 && (an0 C b).2)
  | .alt a b => ((an0 C a).1 || (an0 C b).1, (an0 C a).2 || (an0 C b).2)
  | .star _ => (true, true)
  | .plus e => an0 C e
  | .opt _ => (true, true)
  | .andP e => an0 C e
  | .notP e => (!(an0 C e).2, !(an0 C e).1)
  | .rule i => (C.null0 i, C.sure0 i)
  | .pred _ => (true, false)
  | .state _ => (true, true)
  | .act _ e => an0 C e
  | .scope e => ((an0 C e).1 && !guarded C e, (an0 C e).2)

/-- On other texts: may succeed without consuming anything, certainly succeeds. -/
def an1 (C : Cert) : Exp → Bool × Bool
  | .eps => (true, true)
  | .any => (false, true)
  | .lit s => (s.isEmpty, s.isEmpty)
  | .litI s => (s.isEmpty, s.isEmpty)
  | .cls _ => (false, false)
  | .seq a b => ((an1 C a).1 && (an1 C b).1, (an1 C a).2 && (an1 C b).2 && (an0 C b).2)
  | .alt a b => ((an1 C a).1 || (an1 C b).1, (an1 C a).2 || (an1 C b).2)
  | .star _ => (true, true)
  | .plus e => an1 C e
  | .opt _ => (true, true)
  | .andP e => (true, (an1 C e).2)
  | .notP e => (!(an1 C e).2, false)
  | .rule i => (C.null1 i, C.sure1 i)
  | .pred _ => (true, false)
  | .state _ => (true, true)
  | .act _ e => an1 C e
  | .scope e => ((an1 C e).1 && !guarded C e, (an1 C e).2)

/-- Iterated expressions always consume. -/
def starsOk (C : Cert) : Exp → Bool
  | .seq a b => starsOk C a && starsOk C b
  | .alt a b => starsOk C a && starsOk C b
  | .star e => starsOk C e && ((!(an0 C e).1 && !(an1 C e).1) || C.exempt.contains e)
  | .plus e => starsOk C e && ((!(an0 C e).1 && !(an1 C e).1) || C.exempt.contains e)
  | .opt e => starsOk C e
  | .andP e => starsOk C e
  | .notP e => starsOk C e
  | .act _ e => starsOk C e
  | .scope e => starsOk C e
  | _ => true

/-- The rules called before anything is consumed have a rank below `r`. -/
def leftOk (C : Cert) (r : Nat) : Exp → Bool
  | .seq a b => leftOk C r a && (!((an0 C a).1 || (an1 C a).1) || leftOk C r b)
  | .alt a b => leftOk C r a && leftOk C r b
  | .star e => leftOk C r e
  | .plus e => leftOk C r e
  | .opt e => leftOk C r e
  | .andP e => leftOk C r e
  | .notP e => leftOk C r e
  | .rule i => decide (C.rank i < r)
  | .act _ e => leftOk C r e
  | .scope e => leftOk C r e
  | _ => true

/-- The certificate is right for one rule: what it may and must match. -/
def nullOk (C : Cert) (i : Nat) (e : Exp) : Bool :=
  (!(an0 C e).1 || C.null0 i) && (!(an1 C e).1 || C.null1 i) && (!C.sure0 i || (an0 C e).2) &&
  (!C.sure1 i || (an1 C e).2)

/-- The certificate is right for one rule: termination. -/
def ruleOk (C : Cert) (i : Nat) (e : Exp) : Bool :=
  starsOk C e && leftOk C (C.rank i) e && decide (C.rank i < C.top)

/-- The predicates of `guards` only hold when something was consumed since the beginning of their
sequence. -/
def Progress {σ : Type} (C : Cert) (S : Sem σ) : Prop :=
  ∀ id ∈ C.guards, ∀ s st t, (S.pred id s st t).1 = true → t.length < st.length

/-- The remaining text, none for a failure. -/
def Res.rest {σ : Type} : Res σ → Option Text
  | .fail _ => none
  | .ok _ r => some r

theorem matchLit_suffix : ∀ (l : List Char) (t r : Text), matchLit l t = some r → r <:+ t
  | [], t, r, h => by cases h; exact List.suffix_refl t
  | a :: s, [], r, h => by
    unfold matchLit at h
    split at h
    · exact matchLit_suffix s [] r h
    · cases h
  | a :: s, c :: t, r, h => by
    unfold matchLit at h
    split at h
    · exact (matchLit_suffix s t r h).trans (List.suffix_cons c t)
    · cases h

theorem matchLitI_suffix : ∀ (l : List Char) (t r : Text), matchLitI l t = some r → r <:+ t
  | [], t, r, h => by cases h; exact List.suffix_refl t
  | a :: s, [], r, h => by cases h
  | a :: s, c :: t, r, h => by
    unfold matchLitI at h
    split at h
    · exact (matchLitI_suffix s t r h).trans (List.suffix_cons c t)
    · cases h

theorem matchLit_nil : ∀ (l : List Char), (matchLit l []).isSome = l.all (· == '\uFFFD')
  | [] => rfl
  | a :: s => by
    unfold matchLit
    rw [List.all_cons]
    by_cases h : a = '\uFFFD'
    · rw [if_pos h, matchLit_nil s, h]; rfl
    · rw [if_neg h, show (a == '\uFFFD') = false from by simpa using h]; rfl

theorem matchLitI_nil (l : List Char) : (matchLitI l []).isSome = l.isEmpty := by
  cases l <;> rfl

/-- What the analysis says about one evaluation. -/
structure Fact (C : Cert) (e : Exp) (st t : Text) (o : Option Text) : Prop where
  suffix : ∀ r, o = some r → r <:+ t
  may0 : t = [] → o.isSome = true → (an0 C e).1 = true
  sure0 : t = [] → (an0 C e).2 = true → o.isSome = true
  may1 : t ≠ [] → o = some t → (an1 C e).1 = true
  sure1 : t ≠ [] → (an1 C e).2 = true → o.isSome = true
  guard : guarded C e = true → ∀ r, o = some r → r.length < st.length

/-- The certificate is right for the whole grammar. -/
structure Sound (C : Cert) (G : Nat → Exp) : Prop where
  null : ∀ i, nullOk C i (G i) = true

/-- The certificate is right for the whole grammar, and shows termination. -/
structure Valid (C : Cert) (G : Nat → Exp) : Prop extends Sound C G where
  rule : ∀ i, ruleOk C i (G i) = true

theorem Sound.null0 {C : Cert} {G : Nat → Exp} (h : Sound C G) (i : Nat) (a : (an0 C (G i)).1 = true) :
    C.null0 i = true := by
  have := h.null i; simp [nullOk, a] at this; tauto

theorem Sound.null1 {C : Cert} {G : Nat → Exp} (h : Sound C G) (i : Nat) (a : (an1 C (G i)).1 = true) :
    C.null1 i = true := by
  have := h.null i; simp [nullOk, a] at this; tauto

theorem Sound.sure0 {C : Cert} {G : Nat → Exp} (h : Sound C G) (i : Nat) (a : C.sure0 i = true) :
    (an0 C (G i)).2 = true := by
  have := h.null i; simp [nullOk, a] at this; tauto

theorem Sound.sure1 {C : Cert} {G : Nat → Exp} (h : Sound C G) (i : Nat) (a : C.sure1 i = true) :
    (an1 C (G i)).2 = true := by
  have := h.null i; simp [nullOk, a] at this; tauto

theorem Valid.stars {C : Cert} {G : Nat → Exp} (h : Valid C G) (i : Nat) : starsOk C (G i) = true := by
  have := h.rule i; simp [ruleOk] at this; tauto

theorem Valid.left {C : Cert} {G : Nat → Exp} (h : Valid C G) (i : Nat) : leftOk C (C.rank i) (G i) = true := by
  have := h.rule i; simp [ruleOk] at this; tauto

theorem Valid.top {C : Cert} {G : Nat → Exp} (h : Valid C G) (i : Nat) : C.rank i < C.top := by
  have := h.rule i; simp [ruleOk] at this; tauto

theorem eq_of_suffix_length {r t : Text} (h : r <:+ t) (hl : t.length ≤ r.length) : r = t :=
  h.eq_of_length_le hl

theorem suffix_antisymm {r t : Text} (h : r <:+ t) (h' : t <:+ r) : r = t :=
  eq_of_suffix_length h h'.length_le

section
variable {σ : Type} (C : Cert) (G : Nat → Exp) (S : Sem σ)

theorem fact_seq {a b : Exp} {st t r : Text} {o : Option Text}
    (ha : Fact C a st t (some r)) (hb : Fact C b st r o) : Fact C (.seq a b) st t o where
  suffix r' h := (hb.suffix r' h).trans (ha.suffix r rfl)
  may0 h0 ho := by
    have hr : r = [] := List.eq_nil_of_suffix_nil (h0 ▸ ha.suffix r rfl)
    simp [an0, ha.may0 h0 rfl, hb.may0 hr ho]
  sure0 h0 hs := by
    have hr : r = [] := List.eq_nil_of_suffix_nil (h0 ▸ ha.suffix r rfl)
    simp [an0] at hs
    exact hb.sure0 hr hs.2
  may1 h1 ho := by
    have hr : r = t := suffix_antisymm (ha.suffix r rfl) (hb.suffix t ho)
    subst hr
    simp [an1, ha.may1 h1 rfl, hb.may1 h1 ho]
  sure1 h1 hs := by
    simp [an1] at hs
    by_cases hr : r = []
    · exact hb.sure0 hr hs.2
    · exact hb.sure1 hr hs.1.2
  guard hg r' h := by
    simp [guarded] at hg
    rcases hg with hg | hg
    · exact Nat.lt_of_le_of_lt (hb.suffix r' h).length_le (ha.guard hg r rfl)
    · exact hb.guard hg r' h

theorem fact_fail_left {a b : Exp} {st t : Text} (ha : Fact C a st t none) : Fact C (.seq a b) st t none where
  suffix _ h := nomatch h
  may0 _ ho := nomatch ho
  sure0 h0 hs := by
    simp [an0] at hs
    exact absurd (ha.sure0 h0 hs.1) (by simp)
  may1 _ ho := nomatch ho
  sure1 h1 hs := by
    simp [an1] at hs
    exact absurd (ha.sure1 h1 hs.1.1) (by simp)
  guard _ _ h := nomatch h

/-- Soundness of the analysis. -/
theorem fact (hC : Sound C G) (hS : Progress C S) : ∀ (n : Nat) (e : Exp) (st : Text) (s : σ) (t : Text) (r : Res σ),
    run G S n e st s t = some r → Fact C e st t r.rest := by
  intro n
  induction n with
  | zero => intro e st s t r h; cases h
  | succ n ih =>
    intro e st s t r h
    cases e with
    | eps =>
      cases h
      exact ⟨fun r h => by cases h; exact List.suffix_refl t, fun _ _ => rfl, fun _ _ => rfl, fun _ _ => rfl,
        fun _ _ => rfl, fun h => nomatch h⟩
    | any =>
      cases t with
      | nil =>
        cases h
        exact ⟨(fun _ h => nomatch h), (fun _ h => nomatch h), (fun _ h => nomatch h), (fun _ h => nomatch h),
          (fun h => absurd rfl h), (fun h => nomatch h)⟩
      | cons c u =>
        cases h
        refine ⟨(fun r h => ?_), (fun h => nomatch h), (fun h => nomatch h), (fun _ h => ?_), (fun _ _ => rfl),
          (fun h => nomatch h)⟩
        · cases h; exact List.suffix_cons c u
        · have : u.length = (c :: u).length := congrArg List.length (Option.some.inj h)
          simp at this
    | lit l =>
      have h : (match matchLit l t with | none => some (Res.fail s) | some r => some (.ok s r)) = some r := h
      cases hm : matchLit l t with
      | none =>
        rw [hm] at h; cases h
        refine ⟨(fun _ h => nomatch h), (fun _ h => nomatch h), (fun h0 hs => ?_), (fun _ h => nomatch h), (fun _ hs => ?_),
          (fun h => nomatch h)⟩
        · subst h0
          have := matchLit_nil l
          rw [hm] at this
          exact this.trans hs
        · have hs : l.isEmpty = true := hs
          cases l with
          | nil => cases hm
          | cons => cases hs
      | some u =>
        rw [hm] at h; cases h
        refine ⟨(fun r h => ?_), (fun h0 _ => ?_), (fun _ _ => rfl), (fun h1 ho => ?_), (fun _ _ => rfl),
          (fun h => nomatch h)⟩
        · cases h; exact matchLit_suffix l t _ hm
        · subst h0
          have := matchLit_nil l
          rw [hm] at this
          exact this.symm
        · cases ho
          cases l with
          | nil => rfl
          | cons a l =>
            cases t with
            | nil => exact absurd rfl h1
            | cons c t =>
              unfold matchLit at hm
              split at hm
              · have := (matchLit_suffix l t _ hm).length_le
                simp at this
                omega
              · cases hm
    | litI l =>
      have h : (match matchLitI l t with | none => some (Res.fail s) | some r => some (.ok s r)) = some r := h
      cases hm : matchLitI l t with
      | none =>
        rw [hm] at h; cases h
        refine ⟨(fun _ h => nomatch h), (fun _ h => nomatch h), (fun h0 hs => ?_), (fun _ h => nomatch h), (fun _ hs => ?_),
          (fun h => nomatch h)⟩
        · have hs : l.isEmpty = true := hs
          cases l with
          | nil => cases hm
          | cons => cases hs
        · have hs : l.isEmpty = true := hs
          cases l with
          | nil => cases hm
          | cons => cases hs
      | some u =>
        rw [hm] at h; cases h
        refine ⟨(fun r h => ?_), (fun h0 _ => ?_), (fun _ _ => rfl), (fun h1 ho => ?_), (fun _ _ => rfl),
          (fun h => nomatch h)⟩
        · cases h; exact matchLitI_suffix l t _ hm
        · subst h0
          have := matchLitI_nil l
          rw [hm] at this
          exact this.symm
        · cases ho
          cases l with
          | nil => rfl
          | cons a l =>
            cases t with
            | nil => exact absurd rfl h1
            | cons c t =>
              unfold matchLitI at hm
              split at hm
              · have := (matchLitI_suffix l t _ hm).length_le
                simp at this
                omega
              · cases hm
    | cls c =>
      cases t with
      | nil =>
        cases h
        exact ⟨(fun _ h => nomatch h), (fun _ h => nomatch h), (fun _ h => nomatch h), (fun _ h => nomatch h),
          (fun _ h => nomatch h), (fun h => nomatch h)⟩
      | cons x u =>
        have h : (if c.has S.letter S.number x then some (Res.ok s u) else some (.fail s)) = some r := h
        split at h <;> cases h
        · refine ⟨(fun r h => ?_), (fun h => nomatch h), (fun h => nomatch h), (fun _ h => ?_), (fun _ h => nomatch h),
            (fun h => nomatch h)⟩
          · cases h; exact List.suffix_cons x u
          · have : u.length = (x :: u).length := congrArg List.length (Option.some.inj h)
            simp at this
        · exact ⟨(fun _ h => nomatch h), (fun _ h => nomatch h), (fun _ h => nomatch h), (fun _ h => nomatch h),
            (fun _ h => nomatch h), (fun h => nomatch h)⟩
    | seq a b =>
      have h : (match run G S n a st s t with
        | none => none
        | some (.fail s') => some (.fail s')
        | some (.ok s' r) => run G S n b st s' r) = some r := h
      cases ha : run G S n a st s t with
      | none => rw [ha] at h; cases h
      | some ra =>
        rw [ha] at h
        have fa := ih a st s t ra ha
        cases ra with
        | fail s' => cases h; exact fact_fail_left C fa
        | ok s' u => exact fact_seq C fa (ih b st s' u r h)
    | alt a b =>
      have h : (match run G S n a st s t with
        | none => none
        | some (.fail s') => run G S n b st (S.restore s s') t
        | some (.ok s' r) => some (.ok s' r)) = some r := h
      cases ha : run G S n a st s t with
      | none => rw [ha] at h; cases h
      | some ra =>
        rw [ha] at h
        have fa := ih a st s t ra ha
        cases ra with
        | fail s' =>
          have fb := ih b st _ t r h
          refine ⟨fb.suffix, fun h0 ho => ?_, fun h0 hs => ?_, fun h1 ho => ?_, fun h1 hs => ?_, (fun h => nomatch h)⟩
          · simp [an0, fb.may0 h0 ho]
          · simp [an0] at hs
            rcases hs with hs | hs
            · exact absurd (fa.sure0 h0 hs) (by simp [Res.rest])
            · exact fb.sure0 h0 hs
          · simp [an1, fb.may1 h1 ho]
          · simp [an1] at hs
            rcases hs with hs | hs
            · exact absurd (fa.sure1 h1 hs) (by simp [Res.rest])
            · exact fb.sure1 h1 hs
        | ok s' u =>
          cases h
          refine ⟨fa.suffix, fun h0 ho => ?_, fun h0 hs => rfl, fun h1 ho => ?_, fun h1 hs => rfl, (fun h => nomatch h)⟩
          · simp [an0, fa.may0 h0 ho]
          · simp [an1, fa.may1 h1 ho]
    | star e =>
      have h : (match run G S n e st s t with
        | none => none
        | some (.fail s') => some (.ok s' t)
        | some (.ok s' r) => run G S n (.star e) st s' r) = some r := h
      cases ha : run G S n e st s t with
      | none => rw [ha] at h; cases h
      | some ra =>
        rw [ha] at h
        have fa := ih e st s t ra ha
        cases ra with
        | fail s' =>
          cases h
          exact ⟨(fun r h => by cases h; exact List.suffix_refl t), fun _ _ => rfl, fun _ _ => rfl, fun _ _ => rfl,
            fun _ _ => rfl, (fun h => nomatch h)⟩
        | ok s' u =>
          have fb := ih (.star e) st s' u r h
          refine ⟨(fun r h => (fb.suffix r h).trans (fa.suffix u rfl)), fun _ _ => rfl, fun h0 _ => ?_, fun _ _ => rfl,
            fun _ _ => ?_, (fun h => nomatch h)⟩
          · by_cases hu : u = []
            · exact fb.sure0 hu rfl
            · exact fb.sure1 hu rfl
          · by_cases hu : u = []
            · exact fb.sure0 hu rfl
            · exact fb.sure1 hu rfl
    | plus e =>
      have h : (match run G S n e st s t with
        | none => none
        | some (.fail s') => some (.fail s')
        | some (.ok s' r) => run G S n (.star e) st s' r) = some r := h
      cases ha : run G S n e st s t with
      | none => rw [ha] at h; cases h
      | some ra =>
        rw [ha] at h
        have fa := ih e st s t ra ha
        cases ra with
        | fail s' =>
          cases h
          exact ⟨(fun _ h => nomatch h), (fun _ h => nomatch h), (fun h0 hs => fa.sure0 h0 hs), (fun _ h => nomatch h),
            (fun h1 hs => fa.sure1 h1 hs), (fun h => nomatch h)⟩
        | ok s' u =>
          have fb := ih (.star e) st s' u r h
          have hsome : r.rest.isSome = true := by
            by_cases hu : u = []
            · exact fb.sure0 hu rfl
            · exact fb.sure1 hu rfl
          refine ⟨(fun r h => (fb.suffix r h).trans (fa.suffix u rfl)), (fun h0 _ => fa.may0 h0 rfl), fun h0 _ => hsome,
            (fun h1 ho => ?_), fun _ _ => hsome, (fun h => nomatch h)⟩
          have hu : u = t := suffix_antisymm (fa.suffix u rfl) (fb.suffix t ho)
          subst hu
          exact fa.may1 h1 rfl
    | opt e =>
      have h : (match run G S n e st s t with
        | none => none
        | some (.fail s') => some (.ok s' t)
        | some (.ok s' r) => some (.ok s' r)) = some r := h
      cases ha : run G S n e st s t with
      | none => rw [ha] at h; cases h
      | some ra =>
        rw [ha] at h
        have fa := ih e st s t ra ha
        cases ra with
        | fail s' =>
          cases h
          exact ⟨(fun r h => by cases h; exact List.suffix_refl t), fun _ _ => rfl, fun _ _ => rfl, fun _ _ => rfl,
            fun _ _ => rfl, (fun h => nomatch h)⟩
        | ok s' u =>
          cases h
          exact ⟨fa.suffix, fun _ _ => rfl, fun _ _ => rfl, fun _ _ => rfl, fun _ _ => rfl, (fun h => nomatch h)⟩
    | andP e =>
      have h : (match run G S n e st s t with
        | none => none
        | some (.fail s') => some (.fail (S.restore s s'))
        | some (.ok s' _) => some (.ok (S.restore s s') t)) = some r := h
      cases ha : run G S n e st s t with
      | none => rw [ha] at h; cases h
      | some ra =>
        rw [ha] at h
        have fa := ih e st s t ra ha
        cases ra with
        | fail s' =>
          cases h
          exact ⟨(fun _ h => nomatch h), (fun _ h => nomatch h), (fun h0 hs => fa.sure0 h0 hs), (fun _ h => nomatch h),
            (fun h1 hs => fa.sure1 h1 hs), (fun h => nomatch h)⟩
        | ok s' u =>
          cases h
          exact ⟨(fun r h => by cases h; exact List.suffix_refl t), (fun h0 _ => fa.may0 h0 rfl), fun _ _ => rfl,
            fun _ _ => rfl, fun _ _ => rfl, (fun h => nomatch h)⟩
    | notP e =>
      have h : (match run G S n e st s t with
        | none => none
        | some (.fail s') => some (.ok (S.restore s s') t)
        | some (.ok s' _) => some (.fail (S.restore s s'))) = some r := h
      cases ha : run G S n e st s t with
      | none => rw [ha] at h; cases h
      | some ra =>
        rw [ha] at h
        have fa := ih e st s t ra ha
        cases ra with
        | fail s' =>
          cases h
          refine ⟨(fun r h => by cases h; exact List.suffix_refl t), (fun h0 _ => ?_), fun _ _ => rfl,
            (fun h1 _ => ?_), fun _ _ => rfl, (fun h => nomatch h)⟩
          · show (!(an0 C e).2) = true
            cases hs : (an0 C e).2 with
            | false => rfl
            | true => exact absurd (fa.sure0 h0 hs) (by simp [Res.rest])
          · show (!(an1 C e).2) = true
            cases hs : (an1 C e).2 with
            | false => rfl
            | true => exact absurd (fa.sure1 h1 hs) (by simp [Res.rest])
        | ok s' u =>
          cases h
          refine ⟨(fun _ h => nomatch h), (fun _ h => nomatch h), (fun h0 hs => ?_), (fun _ h => nomatch h),
            (fun _ h => nomatch h), (fun h => nomatch h)⟩
          have hs : (!(an0 C e).1) = true := hs
          rw [fa.may0 h0 rfl] at hs
          cases hs
    | rule i =>
      have fa := ih (G i) t s t r h
      refine ⟨fa.suffix, (fun h0 ho => hC.null0 i (fa.may0 h0 ho)), (fun h0 hs => fa.sure0 h0 (hC.sure0 i hs)),
        (fun h1 ho => hC.null1 i (fa.may1 h1 ho)), (fun h1 hs => fa.sure1 h1 (hC.sure1 i hs)), (fun h => nomatch h)⟩
    | pred id =>
      have h : (match S.pred id s st t with
        | (true, s') => some (Res.ok s' t)
        | (false, s') => some (.fail s')) = some r := h
      cases hp : S.pred id s st t with
      | mk ok s' =>
        rw [hp] at h
        cases ok with
        | true =>
          cases h
          refine ⟨(fun r h => by cases h; exact List.suffix_refl t), fun _ _ => rfl, fun _ _ => rfl, fun _ _ => rfl,
            fun _ _ => rfl, fun hg r h => ?_⟩
          cases h
          exact hS id (by simpa [guarded] using hg) s st t (by rw [hp])
        | false =>
          cases h
          exact ⟨(fun _ h => nomatch h), (fun _ h => nomatch h), (fun _ h => nomatch h), (fun _ h => nomatch h),
            (fun _ h => nomatch h), (fun _ _ h => nomatch h)⟩
    | state id =>
      cases h
      exact ⟨(fun r h => by cases h; exact List.suffix_refl t), fun _ _ => rfl, fun _ _ => rfl, fun _ _ => rfl,
        fun _ _ => rfl, (fun h => nomatch h)⟩
    | act id e =>
      have h : (match run G S n e st s t with
        | none => none
        | some (.fail s') => some (.fail s')
        | some (.ok s' r) => some (.ok (S.act id s' t r) r)) = some r := h
      cases ha : run G S n e st s t with
      | none => rw [ha] at h; cases h
      | some ra =>
        rw [ha] at h
        have fa := ih e st s t ra ha
        cases ra with
        | fail s' => cases h; exact ⟨fa.suffix, fa.may0, fa.sure0, fa.may1, fa.sure1, fa.guard⟩
        | ok s' u => cases h; exact ⟨fa.suffix, fa.may0, fa.sure0, fa.may1, fa.sure1, fa.guard⟩
    | scope e =>
      have h : (match run G S n e t s t with
        | none => none
        | some (.fail s') => some (.fail (S.restore s s'))
        | some (.ok s' r) => some (.ok s' r)) = some r := h
      cases ha : run G S n e t s t with
      | none => rw [ha] at h; cases h
      | some ra =>
        rw [ha] at h
        have fa := ih e t s t ra ha
        cases ra with
        | fail s' =>
          cases h
          exact ⟨(fun _ h => nomatch h), (fun _ h => nomatch h), (fun h0 hs => fa.sure0 h0 hs), (fun _ h => nomatch h),
            (fun h1 hs => fa.sure1 h1 hs), (fun h => nomatch h)⟩
        | ok s' u =>
          cases h
          refine ⟨fa.suffix, (fun h0 ho => ?_), fun _ _ => rfl, (fun h1 ho => ?_), fun _ _ => rfl, (fun h => nomatch h)⟩
          · show ((an0 C e).1 && !guarded C e) = true
            rw [fa.may0 h0 ho]
            cases hg : guarded C e with
            | false => rfl
            | true =>
              have := fa.guard hg u rfl
              rw [h0] at this
              simp at this
          · show ((an1 C e).1 && !guarded C e) = true
            rw [fa.may1 h1 ho]
            cases hg : guarded C e with
            | false => rfl
            | true =>
              have := fa.guard hg t ho
              omega

/-- More depth does not change the result. -/
theorem run_mono : ∀ (n : Nat) (e : Exp) (st : Text) (s : σ) (t : Text) (r : Res σ),
    run G S n e st s t = some r → run G S (n + 1) e st s t = some r := by
  intro n
  induction n with
  | zero => intro e st s t r h; cases h
  | succ n ih =>
    intro e st s t r h
    cases e with
    | eps => exact h
    | any => exact h
    | lit l => exact h
    | litI l => exact h
    | cls c => exact h
    | pred id => exact h
    | state id => exact h
    | rule i => exact ih (G i) t s t r h
    | seq a b =>
      unfold run at h ⊢
      cases ha : run G S n a st s t with
      | none => rw [ha] at h; cases h
      | some ra =>
        rw [ih _ _ _ _ _ ha]
        rw [ha] at h
        cases ra with
        | fail s' => exact h
        | ok s' u => exact ih _ _ _ _ _ h
    | alt a b =>
      unfold run at h ⊢
      cases ha : run G S n a st s t with
      | none => rw [ha] at h; cases h
      | some ra =>
        rw [ih _ _ _ _ _ ha]
        rw [ha] at h
        cases ra with
        | fail s' => exact ih _ _ _ _ _ h
        | ok s' u => exact h
    | star e =>
      unfold run at h ⊢
      cases ha : run G S n e st s t with
      | none => rw [ha] at h; cases h
      | some ra =>
        rw [ih _ _ _ _ _ ha]
        rw [ha] at h
        cases ra with
        | fail s' => exact h
        | ok s' u => exact ih _ _ _ _ _ h
    | plus e =>
      unfold run at h ⊢
      cases ha : run G S n e st s t with
      | none => rw [ha] at h; cases h
      | some ra =>
        rw [ih _ _ _ _ _ ha]
        rw [ha] at h
        cases ra with
        | fail s' => exact h
        | ok s' u => exact ih _ _ _ _ _ h
    | opt e | andP e | notP e | act id e =>
      unfold run at h ⊢
      cases ha : run G S n e st s t with
      | none => rw [ha] at h; cases h
      | some ra =>
        rw [ih _ _ _ _ _ ha]
        rw [ha] at h
        exact h
    | scope e =>
      unfold run at h ⊢
      cases ha : run G S n e t s t with
      | none => rw [ha] at h; cases h
      | some ra =>
        rw [ih _ _ _ _ _ ha]
        rw [ha] at h
        exact h

theorem run_le {n m : Nat} (hnm : n ≤ m) {e : Exp} {st : Text} {s : σ} {t : Text} {r : Res σ}
    (h : run G S n e st s t = some r) : run G S m e st s t = some r := by
  induction hnm with
  | refl => exact h
  | step _ ih => exact run_mono G S _ _ _ _ _ _ ih

/-- The result does not depend on the depth. -/
theorem run_det {n m : Nat} {e : Exp} {st : Text} {s : σ} {t : Text} {r r' : Res σ}
    (h : run G S n e st s t = some r) (h' : run G S m e st s t = some r') : r = r' := by
  have a := run_le G S (Nat.le_max_left n m) h
  have b := run_le G S (Nat.le_max_right n m) h'
  rw [a] at b
  exact Option.some.inj b

/-- The evaluation ends. -/
def Ends (e : Exp) (st : Text) (s : σ) (t : Text) : Prop := ∃ n r, run G S n e st s t = some r

theorem leftOk_mono (C : Cert) {r r' : Nat} (h : r ≤ r') : ∀ e, leftOk C r e = true → leftOk C r' e = true := by
  intro e
  induction e with
  | seq a b iha ihb =>
    intro h
    simp only [leftOk, Bool.and_eq_true, Bool.or_eq_true] at h ⊢
    exact ⟨iha h.1, h.2.imp id ihb⟩
  | alt a b iha ihb =>
    intro h
    simp only [leftOk, Bool.and_eq_true] at h ⊢
    exact ⟨iha h.1, ihb h.2⟩
  | star e ih | plus e ih | opt e ih | andP e ih | notP e ih | act _ e ih | scope e ih => exact ih
  | rule i =>
    intro h'
    simp only [leftOk, decide_eq_true_eq] at h' ⊢
    omega
  | _ => intro _; rfl

/-- Every expression is fine for a bound above all ranks. -/
theorem leftOk_top {C : Cert} {G : Nat → Exp} (hC : Valid C G) : ∀ e, leftOk C C.top e = true := by
  intro e
  induction e with
  | seq a b iha ihb => simp [leftOk, iha, ihb]
  | alt a b iha ihb => simp [leftOk, iha, ihb]
  | star e ih | plus e ih | opt e ih | andP e ih | notP e ih | act _ e ih | scope e ih => exact ih
  | rule i => exact decide_eq_true (hC.top i)
  | _ => rfl

/-- Iterated expressions consume when they succeed. -/
theorem star_progress (hC : Valid C G) (hS : Progress C S)
    (hE : ∀ e ∈ C.exempt, ∀ n st s t s' u, run G S n e st s t = some (.ok s' u) → u.length < t.length)
    {e : Exp} (h : ((!(an0 C e).1 && !(an1 C e).1) || C.exempt.contains e) = true)
    {n : Nat} {st : Text} {s s' : σ} {t u : Text} (hr : run G S n e st s t = some (.ok s' u)) : u.length < t.length := by
  by_cases hx : C.exempt.contains e = true
  · exact hE e (by simpa using hx) n st s t s' u hr
  · have f := fact C G S hC.toSound hS n e st s t _ hr
    simp only [Bool.or_eq_true, Bool.and_eq_true, hx, or_false] at h
    by_cases h0 : t = []
    · have := f.may0 h0 rfl
      simp [this] at h
    · have hs := f.suffix u rfl
      rcases Nat.lt_or_ge u.length t.length with hl | hl
      · exact hl
      · have : u = t := eq_of_suffix_length hs hl
        have := f.may1 h0 (by rw [this]; rfl)
        simp [this] at h

/-- **Termination**: with a right certificate, every expression of the grammar ends on every text, from every
state, whatever the code in the grammar does (provided that the predicates of `guards` check progress). -/
theorem ends (hC : Valid C G) (hS : Progress C S)
    (hE : ∀ e ∈ C.exempt, ∀ n st s t s' u, run G S n e st s t = some (.ok s' u) → u.length < t.length) :
    ∀ (len : Nat) (t : Text), t.length = len → ∀ (r : Nat) (e : Exp), starsOk C e = true → leftOk C r e = true →
      ∀ st s, Ends G S e st s t := by
  intro len
  induction len using Nat.strongRecOn with
  | ind len ihLen =>
    intro t ht r
    induction r using Nat.strongRecOn with
    | ind r ihRank =>
      -- shorter texts
      have short : ∀ u : Text, u.length < t.length → ∀ e, starsOk C e = true → ∀ st s, Ends G S e st s u :=
        fun u hu e he st s => ihLen u.length (ht ▸ hu) u rfl C.top e he (leftOk_top hC e) st s
      intro e
      induction e with
      | eps => intro _ _ st s; exact ⟨1, _, rfl⟩
      | any => intro _ _ st s; cases t <;> exact ⟨1, _, rfl⟩
      | lit l =>
        intro _ _ st s
        cases h : matchLit l t with
        | none => exact ⟨1, .fail s, by unfold run; rw [h]⟩
        | some u => exact ⟨1, .ok s u, by unfold run; rw [h]⟩
      | litI l =>
        intro _ _ st s
        cases h : matchLitI l t with
        | none => exact ⟨1, .fail s, by unfold run; rw [h]⟩
        | some u => exact ⟨1, .ok s u, by unfold run; rw [h]⟩
      | cls c =>
        intro _ _ st s
        cases t with
        | nil => exact ⟨1, _, rfl⟩
        | cons x u =>
          cases h : c.has S.letter S.number x with
          | true => exact ⟨1, .ok s u, by unfold run; simp [h]⟩
          | false => exact ⟨1, .fail s, by unfold run; simp [h]⟩
      | pred id =>
        intro _ _ st s
        cases h : S.pred id s st t with
        | mk b s' =>
          cases b with
          | true => exact ⟨1, .ok s' t, by unfold run; rw [h]⟩
          | false => exact ⟨1, .fail s', by unfold run; rw [h]⟩
      | state id => intro _ _ st s; exact ⟨1, _, rfl⟩
      | rule i =>
        intro _ hl st s
        have hl : C.rank i < r := of_decide_eq_true hl
        obtain ⟨n, x, h⟩ := ihRank (C.rank i) hl (G i) (hC.stars i) (hC.left i) t s
        exact ⟨n + 1, x, h⟩
      | seq a b iha ihb =>
        intro hs hl st s
        simp only [starsOk, Bool.and_eq_true] at hs
        simp only [leftOk, Bool.and_eq_true] at hl
        obtain ⟨n, x, h⟩ := iha hs.1 hl.1 st s
        cases x with
        | fail s' => exact ⟨n + 1, .fail s', by unfold run; rw [h]⟩
        | ok s' u =>
          have f := fact C G S hC.toSound hS n a st s t _ h
          have hb : Ends G S b st s' u := by
            rcases Nat.lt_or_ge u.length t.length with hu | hu
            · exact short u hu b hs.2 st s'
            · have e : u = t := eq_of_suffix_length (f.suffix u rfl) hu
              have hn : ((an0 C a).1 || (an1 C a).1) = true := by
                by_cases h0 : t = []
                · rw [f.may0 h0 rfl]; rfl
                · rw [f.may1 h0 (by rw [e]; rfl), Bool.or_true]
              rw [hn] at hl
              rw [e]
              exact ihb hs.2 (by simpa using hl.2) st s'
          obtain ⟨m, y, h2⟩ := hb
          refine ⟨max n m + 1, y, ?_⟩
          unfold run
          rw [run_le G S (Nat.le_max_left n m) h]
          exact run_le G S (Nat.le_max_right n m) h2
      | alt a b iha ihb =>
        intro hs hl st s
        simp only [starsOk, Bool.and_eq_true] at hs
        simp only [leftOk, Bool.and_eq_true] at hl
        obtain ⟨n, x, h⟩ := iha hs.1 hl.1 st s
        cases x with
        | ok s' u => exact ⟨n + 1, .ok s' u, by unfold run; rw [h]⟩
        | fail s' =>
          obtain ⟨m, y, h2⟩ := ihb hs.2 hl.2 st (S.restore s s')
          refine ⟨max n m + 1, y, ?_⟩
          unfold run
          rw [run_le G S (Nat.le_max_left n m) h]
          exact run_le G S (Nat.le_max_right n m) h2
      | star e ih =>
        intro hs hl st s
        have hs' := hs
        simp only [starsOk, Bool.and_eq_true] at hs
        obtain ⟨n, x, h⟩ := ih hs.1 hl st s
        cases x with
        | fail s' => exact ⟨n + 1, .ok s' t, by unfold run; rw [h]⟩
        | ok s' u =>
          obtain ⟨m, y, h2⟩ := short u (star_progress C G S hC hS hE hs.2 h) (.star e) hs' st s'
          refine ⟨max n m + 1, y, ?_⟩
          unfold run
          rw [run_le G S (Nat.le_max_left n m) h]
          exact run_le G S (Nat.le_max_right n m) h2
      | plus e ih =>
        intro hs hl st s
        have hs' : starsOk C (.star e) = true := hs
        simp only [starsOk, Bool.and_eq_true] at hs
        obtain ⟨n, x, h⟩ := ih hs.1 hl st s
        cases x with
        | fail s' => exact ⟨n + 1, .fail s', by unfold run; rw [h]⟩
        | ok s' u =>
          obtain ⟨m, y, h2⟩ := short u (star_progress C G S hC hS hE hs.2 h) (.star e) hs' st s'
          refine ⟨max n m + 1, y, ?_⟩
          unfold run
          rw [run_le G S (Nat.le_max_left n m) h]
          exact run_le G S (Nat.le_max_right n m) h2
      | opt e ih =>
        intro hs hl st s
        obtain ⟨n, x, h⟩ := ih hs hl st s
        cases x <;> exact ⟨n + 1, _, by unfold run; rw [h]⟩
      | andP e ih =>
        intro hs hl st s
        obtain ⟨n, x, h⟩ := ih hs hl st s
        cases x <;> exact ⟨n + 1, _, by unfold run; rw [h]⟩
      | notP e ih =>
        intro hs hl st s
        obtain ⟨n, x, h⟩ := ih hs hl st s
        cases x <;> exact ⟨n + 1, _, by unfold run; rw [h]⟩
      | act id e ih =>
        intro hs hl st s
        obtain ⟨n, x, h⟩ := ih hs hl st s
        cases x <;> exact ⟨n + 1, _, by unfold run; rw [h]⟩
      | scope e ih =>
        intro hs hl st s
        obtain ⟨n, x, h⟩ := ih hs hl t s
        cases x <;> exact ⟨n + 1, _, by unfold run; rw [h]⟩

end

end Peg
end Verif
