import Verif.Proofs.GrammarValid
import Verif.Proofs.Yields
import Verif.Proofs.Tokens
import Verif.Props.Termination

/-!
Expressions that cannot match in a text without certain strings: if `e` is `dead` for a list of strings, it fails on every text that has none
of them inside.
-/
namespace Verif
namespace Peg

/-- Whether `f` occurs in `l`. -/
def occurs (f : List Char) : List Char → Bool
  | [] => f.isEmpty
  | c :: l => f.isPrefixOf (c :: l) || occurs f l

theorem occurs_iff (f l : List Char) : occurs f l = true ↔ f <:+: l := by
  induction l with
  | nil => simp [occurs]
  | cons c l ih =>
    simp only [occurs, Bool.or_eq_true, ih, List.isPrefixOf_iff_prefix]
    exact List.infix_cons_iff.symm

/-- `e` needs one of the strings of `F`, or a predicate or a rule that is known to fail. -/
def dead (F : List (List Char)) (P : List Nat) (T : Nat → Bool) : Exp → Bool
  | .lit l => F.any (fun f => occurs f l) && !l.contains '\uFFFD'
  | .pred i => P.contains i
  | .cls c => !c.neg && c.ranges.isEmpty && !c.letters && !c.numbers && c.chars.all (fun x => F.contains [x])
  | .seq a b => dead F P T a || dead F P T b
  | .alt a b => dead F P T a && dead F P T b
  | .plus e => dead F P T e
  | .andP e => dead F P T e
  | .rule i => T i
  | .act _ e => dead F P T e
  | .scope e => dead F P T e
  | _ => false

/-- None of the strings occurs. -/
def Free (F : List (List Char)) (t : Text) : Prop := ∀ f ∈ F, ¬ f <:+: t

theorem Free.suffix {F : List (List Char)} {t u : Text} (h : Free F t) (hu : u <:+ t) : Free F u :=
  fun f hf hi => h f hf (hi.trans hu.isInfix)

theorem matchLit_prefix : ∀ (l : List Char) (t r : Text), '\uFFFD' ∉ l → matchLit l t = some r → t = l ++ r
  | [], t, r, _, h => by cases h; rfl
  | a :: l, [], r, hl, h => by
    unfold matchLit at h
    rw [if_neg (fun e : a = '\uFFFD' => hl (by rw [e]; exact List.mem_cons_self))] at h; cases h
  | a :: l, c :: t, r, hl, h => by
    unfold matchLit at h
    by_cases e : a = c
    · rw [if_pos e] at h
      rw [matchLit_prefix l t r (fun hm => hl (List.mem_cons_of_mem _ hm)) h, e]; rfl
    · rw [if_neg e] at h; cases h

section
variable {σ : Type} {S : Sem σ}
open Grammar

/-- Soundness, on texts with a property `Q` that rules the strings out: `T` may contain rules whose bodies are dead, and rules (`K`) that are
known to fail. -/
theorem dead_never (hS : C45.ChecksProgress S) (F : List (List Char)) (P : List Nat) (T : Nat → Bool) (K : List Nat)
    (hP : ∀ i ∈ P, ∀ s st t, (S.pred i s st t).1 = false)
    (Q : Text → Prop) (hQ : ∀ t, Q t → Free F t) (hQs : ∀ t u, Q t → u <:+ t → Q u)
    (hK : ∀ i ∈ K, ∀ t, Q t → Never grammar S (.rule i) t)
    (hT : ∀ i, T i = true → i ∈ K ∨ dead F P T (grammar i) = true) :
    ∀ (n : Nat) (e : Exp) (st : Text) (s : σ) (t : Text) (r : Res σ), dead F P T e = true → Q t →
      run grammar S n e st s t = some r → r.rest = none := by
  intro n
  induction n with
  | zero => intro e st s t r _ _ h; cases h
  | succ n ih =>
    intro e st s t r he ht h
    cases e with
    | eps => cases he
    | any => cases he
    | lit l =>
      simp only [dead, Bool.and_eq_true, List.any_eq_true, occurs_iff, Bool.not_eq_true', List.contains_eq_mem, decide_eq_false_iff_not] at he
      obtain ⟨⟨f, hf, hi⟩, hn⟩ := he
      unfold run at h
      cases hm : matchLit l t with
      | none => rw [hm] at h; cases h; rfl
      | some u =>
        have := matchLit_prefix l t u hn hm
        exact absurd (hi.trans (this ▸ (List.prefix_append l u).isInfix)) (hQ t ht f hf)
    | litI l => cases he
    | cls c =>
      simp only [dead, Bool.and_eq_true, Bool.not_eq_true', List.all_eq_true, List.contains_eq_mem, decide_eq_true_eq, List.isEmpty_iff] at he
      obtain ⟨⟨⟨⟨h1, h2⟩, h3⟩, h4⟩, h5⟩ := he
      cases t with
      | nil => cases h; rfl
      | cons x t =>
        unfold run at h
        dsimp only at h
        by_cases hx : c.has S.letter S.number x = true
        · exfalso
          unfold Cls.has at hx
          rw [h1, h2, h3, h4] at hx
          simp at hx
          exact hQ _ ht _ (h5 x hx) ⟨[], t, rfl⟩
        · rw [if_neg hx] at h; cases h; rfl
    | seq a b =>
      rcases eval_seq.mp (eval_of_run h) with ⟨s1, h1, rfl⟩ | ⟨s1, v, h1, h2⟩
      · rfl
      · unfold run at h
        cases ha : run grammar S n a st s t with
        | none => rw [ha] at h; cases h
        | some q =>
          rw [ha] at h
          cases q with
          | fail s1 => cases h; rfl
          | ok s1 v =>
            simp only [dead, Bool.or_eq_true] at he
            rcases he with he | he
            · cases ih a st s t _ he ht ha
            · exact ih b st s1 v r he (hQs t v ht ((fact cert grammar S valid.toSound hS n a st s t _ ha).suffix v rfl)) h
    | alt a b =>
      simp only [dead, Bool.and_eq_true] at he
      unfold run at h
      cases ha : run grammar S n a st s t with
      | none => rw [ha] at h; cases h
      | some q =>
        rw [ha] at h
        cases q with
        | fail s1 => exact ih b st _ t r he.2 ht h
        | ok s1 v => cases ih a st s t _ he.1 ht ha
    | star e => cases he
    | plus e =>
      unfold run at h
      cases ha : run grammar S n e st s t with
      | none => rw [ha] at h; cases h
      | some q =>
        rw [ha] at h
        cases q with
        | fail s1 => cases h; rfl
        | ok s1 v => cases ih e st s t _ he ht ha
    | opt e => cases he
    | andP e =>
      unfold run at h
      cases ha : run grammar S n e st s t with
      | none => rw [ha] at h; cases h
      | some q =>
        rw [ha] at h
        cases q with
        | fail s1 => cases h; rfl
        | ok s1 v => cases ih e st s t _ he ht ha
    | notP e => cases he
    | rule i =>
      rcases hT i he with hk | hd
      · exact hK i hk t ht st s r (eval_of_run h)
      · exact ih (grammar i) t s t r hd ht h
    | pred i =>
      have := hP i (by simpa [dead] using he) s st t
      unfold run at h
      cases hp : S.pred i s st t with
      | mk b s' =>
        rw [hp] at h this
        cases this
        cases h; rfl
    | state i => cases he
    | act i e =>
      unfold run at h
      cases ha : run grammar S n e st s t with
      | none => rw [ha] at h; cases h
      | some q =>
        rw [ha] at h
        cases q with
        | fail s1 => cases h; rfl
        | ok s1 v => cases ih e st s t _ he ht ha
    | scope e =>
      unfold run at h
      cases ha : run grammar S n e t s t with
      | none => rw [ha] at h; cases h
      | some q =>
        rw [ha] at h
        cases q with
        | fail s1 => cases h; rfl
        | ok s1 v => cases ih e t s t _ he ht ha

end
end Peg
end Verif
