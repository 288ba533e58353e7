import Verif.Proofs.Dead
import Verif.Proofs.Exactly

/-!
Two analyses of expressions: with which strings a text has to begin for an expression to match, and which expressions stay on a line.
-/
namespace Verif
namespace Peg
open Walk (Any)

variable {σ : Type} {G : Nat → Exp} {S : Sem σ}

/-- `e` only matches texts that begin with one of the strings `F` (`n` bounds the depth of the search). -/
def begins (G : Nat → Exp) (F : List Text) : Nat → Exp → Bool
  | 0, _ => false
  | _ + 1, .lit l => F.any (fun f => f.isPrefixOf l) && !l.contains '\uFFFD'
  | _ + 1, .cls c => !c.neg && c.ranges.isEmpty && !c.letters && !c.numbers && c.chars.all (fun x => F.contains [x])
  | n + 1, .seq (.opt a) b => begins G F n a && begins G F n b
  | n + 1, .seq a b => begins G F n a || (a.still && begins G F n b)
  | n + 1, .andP e => begins G F n e
  | n + 1, .alt a b => begins G F n a && begins G F n b
  | n + 1, .rule i => begins G F n (G i)
  | n + 1, .act _ e => begins G F n e
  | n + 1, .scope e => begins G F n e
  | n + 1, .plus e => begins G F n e
  | _ + 1, _ => false

theorem begins_never {F : List Text} {t : Text} (hF : ∀ f ∈ F, ¬ f <+: t) : ∀ (n : Nat) (e : Exp), begins G F n e = true → Never G S e t
  | 0, _, h => nomatch h
  | n + 1, .lit l, h => by
    have h : (F.any (fun f => f.isPrefixOf l) && !l.contains '\uFFFD') = true := h
    rw [Bool.and_eq_true] at h
    obtain ⟨h1, h2⟩ := h
    obtain ⟨f, hf, hp⟩ := List.any_eq_true.mp h1
    refine yields_lit.to ?_
    cases hm : matchLit l t with
    | none => rfl
    | some u =>
      have := matchLit_prefix l t u (by simpa using h2) hm
      exact absurd ((List.isPrefixOf_iff_prefix.mp hp).trans (this ▸ List.prefix_append l u)) (hF f hf)
  | n + 1, .cls c, h => by
    have h : (!c.neg && c.ranges.isEmpty && !c.letters && !c.numbers && c.chars.all (fun x => F.contains [x])) = true := h
    simp only [Bool.and_eq_true, Bool.not_eq_true', List.all_eq_true, List.contains_eq_mem, decide_eq_true_eq, List.isEmpty_iff] at h
    obtain ⟨⟨⟨⟨h1, h2⟩, h3⟩, h4⟩, h5⟩ := h
    cases t with
    | nil => exact yields_cls_nil
    | cons x t =>
      refine yields_cls_no ?_
      cases hx : c.has S.letter S.number x with
      | false => rfl
      | true =>
        unfold Cls.has at hx
        rw [h1, h2, h3, h4] at hx
        simp at hx
        exact absurd ⟨t, rfl⟩ (hF _ (h5 x hx))
  | n + 1, .seq a b, h => by
    have key : (begins G F n a || (a.still && begins G F n b)) = true → Never G S (.seq a b) t := by
      intro h
      rcases Bool.or_eq_true_iff.1 h with h | h
      · exact never_seq (begins_never hF n a h)
      · rw [Bool.and_eq_true] at h
        intro st s r hr
        rcases eval_seq.mp hr with ⟨_, _, rfl⟩ | ⟨s1, u, h1, h2⟩
        · rfl
        · rw [still_rest h.1 h1] at h2
          exact begins_never hF n b h.2 _ _ _ h2
    cases a with
    | opt a =>
      have h : (begins G F n a && begins G F n b) = true := h
      rw [Bool.and_eq_true] at h
      intro st s r hr
      rcases eval_seq.mp hr with ⟨_, _, rfl⟩ | ⟨s1, u, h1, h2⟩
      · rfl
      · have := yields_opt_none (begins_never hF n a h.1) _ _ _ h1
        cases this
        exact begins_never hF n b h.2 _ _ _ h2
    | _ => exact key h
  | n + 1, .alt a b, h => by
    have h : (begins G F n a && begins G F n b) = true := h
    rw [Bool.and_eq_true] at h
    exact yields_alt_right (begins_never hF n a h.1) (begins_never hF n b h.2)
  | n + 1, .rule i, h => yields_rule (begins_never hF n (G i) h)
  | n + 1, .act _ e, h => yields_act (begins_never hF n e h)
  | n + 1, .scope e, h => yields_scope (begins_never hF n e h)
  | n + 1, .plus e, h => never_plus (begins_never hF n e h)
  | n + 1, .eps, h => nomatch h
  | n + 1, .any, h => nomatch h
  | n + 1, .litI _, h => nomatch h
  | n + 1, .star _, h => nomatch h
  | n + 1, .opt _, h => nomatch h
  | n + 1, .andP e, h => never_andP (begins_never hF n e h)
  | n + 1, .notP _, h => nomatch h
  | n + 1, .pred _, h => nomatch h
  | n + 1, .state _, h => nomatch h

open Grammar (isEol)

/-- The class has no end of line, provided that these are no letters and no numbers. -/
def Cls.inLine (c : Cls) : Bool :=
  if c.neg then c.chars.contains '\n' && c.chars.contains '\r' else c.ranges.all (fun p => decide (13 < p.1.toNat)) && c.chars.all (fun x => !isEol x)

/-- `e` takes no end of line. -/
def inLine (G : Nat → Exp) : Nat → Exp → Bool
  | 0, _ => false
  | _ + 1, .eps => true
  | _ + 1, .lit l => l.all (fun x => !isEol x) && !l.contains '\uFFFD'
  | _ + 1, .cls c => c.inLine
  | n + 1, .seq a b => inLine G n a && inLine G n b
  | n + 1, .alt a b => inLine G n a && inLine G n b
  | n + 1, .star e => inLine G n e
  | n + 1, .plus e => inLine G n e
  | n + 1, .opt e => inLine G n e
  | n + 1, .rule i => inLine G n (G i)
  | n + 1, .act _ e => inLine G n e
  | n + 1, .scope e => inLine G n e
  | _ + 1, .andP _ => true
  | _ + 1, .notP _ => true
  | _ + 1, .pred _ => true
  | _ + 1, .state _ => true
  | _ + 1, _ => false

/-- What is taken has no end of line. -/
def Short (t : Text) (r : Res σ) : Prop := ∀ u, r.rest = some u → ∃ w, t = w ++ u ∧ ∀ c ∈ w, isEol c = false

theorem short_refl (s : σ) (t : Text) : Short t (.ok s t) := fun u h => by cases h; exact ⟨[], rfl, fun _ h => nomatch h⟩

theorem short_trans {t u : Text} {s : σ} {r : Res σ} (h1 : Short t (.ok s u)) (h2 : Short u r) : Short t r := by
  intro x hx
  obtain ⟨w, rfl, hw⟩ := h1 u rfl
  obtain ⟨w', rfl, hw'⟩ := h2 x hx
  refine ⟨w ++ w', (List.append_assoc _ _ _).symm, fun c hc => ?_⟩
  rcases List.mem_append.mp hc with hc | hc
  · exact hw c hc
  · exact hw' c hc

theorem cls_inLine {c : Cls} (h : c.inLine = true) (hl : ∀ x, isEol x = true → S.letter x = false ∧ S.number x = false) {x : Char}
    (hx : c.has S.letter S.number x = true) : isEol x = false := by
  cases he : isEol x with
  | false => rfl
  | true =>
    exfalso
    obtain ⟨h1, h2⟩ := hl x he
    unfold Cls.inLine at h
    unfold Cls.has at hx
    rw [h1, h2] at hx
    split at h
    · next hn =>
      rw [hn] at hx
      simp only [isEol, Bool.or_eq_true, beq_iff_eq] at he
      rw [Bool.and_eq_true] at h
      rcases he with rfl | rfl <;> simp_all
    · next hn =>
      rw [Bool.and_eq_true] at h
      simp only [Bool.not_eq_true] at hn
      rw [hn] at hx
      have hr : c.ranges.any (fun r => decide (r.1 ≤ x) && decide (x ≤ r.2)) = false := by
        cases hr : c.ranges.any (fun r => decide (r.1 ≤ x) && decide (x ≤ r.2)) with
        | false => rfl
        | true =>
          obtain ⟨r, hm, hr⟩ := List.any_eq_true.mp hr
          have h13 : 13 < r.1.toNat := of_decide_eq_true (List.all_eq_true.mp h.1 r hm)
          have hle : r.1.toNat ≤ x.toNat := of_decide_eq_true (Bool.and_eq_true_iff.mp hr).1
          simp only [isEol, Bool.or_eq_true, beq_iff_eq] at he
          have h10 : ('\n' : Char).toNat = 10 := rfl
          have h13' : ('\r' : Char).toNat = 13 := rfl
          rcases he with rfl | rfl <;> omega
      have := List.all_eq_true.mp h.2 x
      simp_all

theorem inLine_short (hl : ∀ x, isEol x = true → S.letter x = false ∧ S.number x = false) : ∀ (m n : Nat) (e : Exp) (st : Text) (s : σ) (t : Text)
    (r : Res σ), inLine G n e = true → run G S m e st s t = some r → Short t r := by
  intro m
  induction m with
  | zero => intro n e st s t r _ h; cases h
  | succ m ih =>
    intro n e st s t r he h
    cases n with
    | zero => cases he
    | succ n =>
      cases e with
      | eps => cases h; exact short_refl _ _
      | any => cases he
      | litI l => cases he
      | lit l =>
        have he : (l.all (fun x => !isEol x) && !l.contains '\uFFFD') = true := he
        rw [Bool.and_eq_true] at he
        unfold run at h
        cases hm : matchLit l t with
        | none => rw [hm] at h; cases h; intro u hu; cases hu
        | some u =>
          rw [hm] at h; cases h
          intro x hx
          cases hx
          exact ⟨l, matchLit_prefix l t _ (by simpa using he.2) hm, fun c hc => by simpa using List.all_eq_true.mp he.1 c hc⟩
      | cls c =>
        cases t with
        | nil => cases h; intro u hu; cases hu
        | cons x t =>
          unfold run at h
          dsimp only at h
          by_cases hx : c.has S.letter S.number x = true
          · rw [if_pos hx] at h; cases h
            intro u hu
            cases hu
            exact ⟨[x], rfl, fun d hd => by rw [List.mem_singleton.mp hd]; exact cls_inLine he hl hx⟩
          · rw [if_neg hx] at h; cases h; intro u hu; cases hu
      | seq a b =>
        have he : (inLine G n a && inLine G n b) = true := he
        rw [Bool.and_eq_true] at he
        unfold run at h
        cases ha : run G S m a st s t with
        | none => rw [ha] at h; cases h
        | some ra =>
          rw [ha] at h
          cases ra with
          | fail s1 => cases h; intro u hu; cases hu
          | ok s1 u => exact short_trans (ih n a st s t _ he.1 ha) (ih n b st s1 u _ he.2 h)
      | alt a b =>
        have he : (inLine G n a && inLine G n b) = true := he
        rw [Bool.and_eq_true] at he
        unfold run at h
        cases ha : run G S m a st s t with
        | none => rw [ha] at h; cases h
        | some ra =>
          rw [ha] at h
          cases ra with
          | fail s1 => exact ih n b st _ t _ he.2 h
          | ok s1 u => cases h; exact ih n a st s t _ he.1 ha
      | star e =>
        have he' : inLine G n e = true := he
        unfold run at h
        cases ha : run G S m e st s t with
        | none => rw [ha] at h; cases h
        | some ra =>
          rw [ha] at h
          cases ra with
          | fail s1 => cases h; exact short_refl _ _
          | ok s1 u => exact short_trans (ih n e st s t _ he' ha) (ih (n + 1) (.star e) st s1 u _ he h)
      | plus e =>
        have he' : inLine G n e = true := he
        unfold run at h
        cases ha : run G S m e st s t with
        | none => rw [ha] at h; cases h
        | some ra =>
          rw [ha] at h
          cases ra with
          | fail s1 => cases h; intro u hu; cases hu
          | ok s1 u => exact short_trans (ih n e st s t _ he' ha) (ih (n + 1) (.star e) st s1 u _ he h)
      | opt e =>
        have he' : inLine G n e = true := he
        unfold run at h
        cases ha : run G S m e st s t with
        | none => rw [ha] at h; cases h
        | some ra =>
          rw [ha] at h
          cases ra with
          | fail s1 => cases h; exact short_refl _ _
          | ok s1 u => cases h; exact ih n e st s t _ he' ha
      | rule i => exact ih n (G i) t s t r he h
      | act id e =>
        have he' : inLine G n e = true := he
        unfold run at h
        cases ha : run G S m e st s t with
        | none => rw [ha] at h; cases h
        | some ra =>
          rw [ha] at h
          cases ra with
          | fail s1 => cases h; intro u hu; cases hu
          | ok s1 u =>
            cases h
            intro x hx
            cases hx
            exact ih n e st s t _ he' ha _ rfl
      | scope e =>
        have he' : inLine G n e = true := he
        unfold run at h
        cases ha : run G S m e t s t with
        | none => rw [ha] at h; cases h
        | some ra =>
          rw [ha] at h
          cases ra with
          | fail s1 => cases h; intro u hu; cases hu
          | ok s1 u =>
            cases h
            intro x hx
            cases hx
            exact ih n e t s t _ he' ha _ rfl
      | andP e =>
        intro u hu
        cases r with
        | fail s1 => cases hu
        | ok s1 v => cases hu; exact still_rest (a := .andP e) rfl (eval_of_run h) ▸ ⟨[], rfl, fun _ h => nomatch h⟩
      | notP e =>
        intro u hu
        cases r with
        | fail s1 => cases hu
        | ok s1 v => cases hu; exact still_rest (a := .notP e) rfl (eval_of_run h) ▸ ⟨[], rfl, fun _ h => nomatch h⟩
      | pred id =>
        intro u hu
        cases r with
        | fail s1 => cases hu
        | ok s1 v => cases hu; exact still_rest (a := .pred id) rfl (eval_of_run h) ▸ ⟨[], rfl, fun _ h => nomatch h⟩
      | state id => cases h; exact short_refl _ _

theorem inLine_eval (hl : ∀ x, isEol x = true → S.letter x = false ∧ S.number x = false) (n : Nat) {e : Exp} (he : inLine G n e = true) {st : Text} {s : σ}
    {t : Text} {r : Res σ} (h : Eval G S e st s t r) : Short t r := by
  obtain ⟨m, h⟩ := h
  exact inLine_short hl m n e st s t r he h

end Peg
end Verif
