import Verif.Model.Values
import Verif.Proofs.Yields

/-!
The interpreter with values agrees with the one without, and rules for what it gives: `Gives e t P` says that every result of `e` on `t`
satisfies `P`.
-/
namespace Verif
namespace Peg
open Walk (Any)
variable {σ : Type} (G : Nat → Exp) (S : Sem σ) (A : Code σ)

/-- The values do not influence the parse. -/
theorem runV_erase : ∀ (n : Nat) (e : Exp) (st : Text) (s : σ) (t : Text),
    (runV G S A n e st s t).map ResV.erase = run G S n e st s t := by
  intro n
  induction n with
  | zero => intro e st s t; rfl
  | succ n ih =>
    intro e st s t
    cases e with
    | eps => rfl
    | any => cases t <;> rfl
    | lit l => unfold runV run; cases matchLit l t <;> rfl
    | litI l => unfold runV run; cases matchLitI l t <;> rfl
    | cls c =>
      cases t with
      | nil => rfl
      | cons x t => unfold runV run; dsimp only; split <;> rfl
    | seq a b =>
      unfold runV run
      rw [← ih a st s t]
      cases runV G S A n a st s t with
      | none => rfl
      | some r =>
        cases r with
        | fail s' => rfl
        | ok s' v r =>
          dsimp only [Option.map, ResV.erase]
          rw [← ih b st s' r]
          cases runV G S A n b st s' r with
          | none => rfl
          | some q => cases q <;> rfl
    | alt a b =>
      unfold runV run
      rw [← ih a st s t]
      cases runV G S A n a st s t with
      | none => rfl
      | some r =>
        cases r with
        | fail s' => exact ih b st _ t
        | ok s' v r => rfl
    | star e =>
      unfold runV run
      rw [← ih e st s t]
      cases runV G S A n e st s t with
      | none => rfl
      | some r =>
        cases r with
        | fail s' => rfl
        | ok s' v r =>
          dsimp only [Option.map, ResV.erase]
          rw [← ih (.star e) st s' r]
          cases runV G S A n (.star e) st s' r with
          | none => rfl
          | some q => cases q <;> rfl
    | plus e =>
      unfold runV run
      rw [← ih e st s t]
      cases runV G S A n e st s t with
      | none => rfl
      | some r =>
        cases r with
        | fail s' => rfl
        | ok s' v r =>
          dsimp only [Option.map, ResV.erase]
          rw [← ih (.star e) st s' r]
          cases runV G S A n (.star e) st s' r with
          | none => rfl
          | some q => cases q <;> rfl
    | opt e =>
      unfold runV run
      rw [← ih e st s t]
      cases runV G S A n e st s t with
      | none => rfl
      | some r => cases r <;> rfl
    | andP e =>
      unfold runV run
      rw [← ih e st s t]
      cases runV G S A n e st s t with
      | none => rfl
      | some r => cases r <;> rfl
    | notP e =>
      unfold runV run
      rw [← ih e st s t]
      cases runV G S A n e st s t with
      | none => rfl
      | some r => cases r <;> rfl
    | rule i => exact ih (G i) t s t
    | pred id =>
      unfold runV run
      cases S.pred id s st t with
      | mk b s' => cases b <;> rfl
    | state id => rfl
    | act id e =>
      unfold runV run
      rw [← ih e st s t]
      cases runV G S A n e st s t with
      | none => rfl
      | some r => cases r <;> rfl
    | scope e =>
      unfold runV run
      rw [← ih e t s t]
      cases runV G S A n e t s t with
      | none => rfl
      | some r => cases r <;> rfl

/-- The interpreter with values ends with the result `r`. -/
def EvalV (e : Exp) (st : Text) (s : σ) (t : Text) (r : ResV σ) : Prop := ∃ n, runV G S A n e st s t = some r

/-- The interpreter with values ends as soon as the one without does. -/
theorem evalV_of_eval {e : Exp} {st t : Text} {s : σ} {r : Res σ} (h : Eval G S e st s t r) :
    ∃ q, EvalV G S A e st s t q ∧ q.erase = r := by
  obtain ⟨n, h⟩ := h
  rw [← runV_erase G S A] at h
  cases hq : runV G S A n e st s t with
  | none => rw [hq] at h; cases h
  | some q => rw [hq] at h; exact ⟨q, ⟨n, hq⟩, Option.some.inj h⟩

variable {G S A} {a b e : Exp} {st t u : Text} {s s' : σ} {r : ResV σ}

theorem EvalV.erase (h : EvalV G S A e st s t r) : Eval G S e st s t r.erase := by
  obtain ⟨n, h⟩ := h
  exact ⟨n, by rw [← runV_erase G S A, h]; rfl⟩

/-- A success, with the values and the remaining text. -/
def ResV.out : ResV σ → Option (List Any × Text)
  | .fail _ => none
  | .ok _ v r => some (v, r)

theorem ResV.out_rest (r : ResV σ) : r.erase.rest = r.out.map Prod.snd := by cases r <;> rfl

variable (G S A) in
/-- Every result of `e` on `t` satisfies `P`. -/
def Gives (e : Exp) (t : Text) (P : Option (List Any × Text) → Prop) : Prop :=
  ∀ st s r, EvalV G S A e st s t r → P r.out

variable {P Q : Option (List Any × Text) → Prop} {v w : List Any}

theorem Gives.mono (h : Gives G S A e t P) (hPQ : ∀ o, P o → Q o) : Gives G S A e t Q := fun st s r hr => hPQ _ (h st s r hr)

theorem gives_never (h : Never G S e t) (hP : P none) : Gives G S A e t P := by
  intro st s r hr
  have := h st s _ hr.erase
  cases r with
  | fail s' => exact hP
  | ok s' v u => cases this

/-- What is known without the values. -/
theorem Gives.and_yields {o : Option Text} (h : Gives G S A e t P) (hy : Yields G S e t o) :
    Gives G S A e t (fun x => P x ∧ x.map Prod.snd = o) :=
  fun st s r hr => ⟨h st s r hr, by rw [← ResV.out_rest]; exact hy _ _ _ hr.erase⟩

theorem Gives.and_sure (h : Gives G S A e t P) (hy : Sure G S e t) :
    Gives G S A e t (fun x => P x ∧ x ≠ none) :=
  fun st s r hr => ⟨h st s r hr, fun e => by
    have := hy _ _ _ hr.erase
    rw [ResV.out_rest, e] at this; cases this⟩

theorem gives_any : Gives G S A .any t (fun o => match t with
    | [] => o = none
    | c :: r => o = some ([.text [c]], r)) := by
  intro st s r ⟨n, h⟩
  cases n with
  | zero => cases h
  | succ n => cases t <;> cases h <;> rfl

theorem gives_lit {l : List Char} : Gives G S A (.lit l) t (fun o => o = (matchLit l t).map (fun r => ([.text (span t r)], r))) := by
  intro st s r ⟨n, h⟩
  cases n with
  | zero => cases h
  | succ n =>
    unfold runV at h
    cases hm : matchLit l t <;> rw [hm] at h <;> cases h <;> rfl

theorem gives_cls_cons {c : Cls} {x : Char} : Gives G S A (.cls c) (x :: t) (fun o =>
    o = if c.has S.letter S.number x then some ([.text [x]], t) else none) := by
  intro st s r ⟨n, h⟩
  cases n with
  | zero => cases h
  | succ n =>
    unfold runV at h
    dsimp only at h
    by_cases hx : c.has S.letter S.number x = true
    · rw [if_pos hx] at h ⊢; cases h; rfl
    · rw [if_neg hx] at h ⊢; cases h; rfl

theorem gives_cls_nil {c : Cls} : Gives G S A (.cls c) [] (fun o => o = none) := by
  intro st s r ⟨n, h⟩
  cases n with
  | zero => cases h
  | succ n => cases h; rfl

theorem gives_seq (ha : Gives G S A a t P) (hP : P none → Q none)
    (hb : ∀ v u, P (some (v, u)) → Gives G S A b u (fun o => Q (o.map (fun x => (v ++ x.1, x.2))))) : Gives G S A (.seq a b) t Q := by
  intro st s r ⟨n, h⟩
  cases n with
  | zero => cases h
  | succ n =>
    unfold runV at h
    cases h1 : runV G S A n a st s t with
    | none => rw [h1] at h; cases h
    | some q =>
      rw [h1] at h
      have hp := ha _ _ _ ⟨n, h1⟩
      cases q with
      | fail s1 => cases h; exact hP hp
      | ok s1 v u =>
        dsimp only at h
        cases h2 : runV G S A n b st s1 u with
        | none => rw [h2] at h; cases h
        | some q =>
          rw [h2] at h
          have hq := hb v u hp _ _ _ ⟨n, h2⟩
          cases q with
          | fail s2 => cases h; exact hq
          | ok s2 w u' => cases h; exact hq

theorem gives_alt (ha : Gives G S A a t (fun o => o = none ∨ Q o)) (hb : Gives G S A b t Q) : Gives G S A (.alt a b) t Q := by
  intro st s r ⟨n, h⟩
  cases n with
  | zero => cases h
  | succ n =>
    unfold runV at h
    cases h1 : runV G S A n a st s t with
    | none => rw [h1] at h; cases h
    | some q =>
      rw [h1] at h
      have hp := ha _ _ _ ⟨n, h1⟩
      cases q with
      | fail s1 => exact hb _ _ _ ⟨n, h⟩
      | ok s1 v u => cases h; exact hp.resolve_left (fun e => nomatch e)

theorem gives_alt_never (ha : Never G S a t) (hb : Gives G S A b t Q) : Gives G S A (.alt a b) t Q :=
  gives_alt (gives_never ha (.inl rfl)) hb

theorem gives_opt (he : Gives G S A e t P) (h0 : P none → Q (some ([.nil], t))) (h1 : ∀ x, P (some x) → Q (some x)) :
    Gives G S A (.opt e) t Q := by
  intro st s r ⟨n, h⟩
  cases n with
  | zero => cases h
  | succ n =>
    unfold runV at h
    cases hr : runV G S A n e st s t with
    | none => rw [hr] at h; cases h
    | some q =>
      rw [hr] at h
      have hp := he _ _ _ ⟨n, hr⟩
      cases q with
      | fail s1 => cases h; exact h0 hp
      | ok s1 v u => cases h; exact h1 _ hp

theorem gives_opt_never (he : Never G S e t) : Gives G S A (.opt e) t (fun o => o = some ([.nil], t)) :=
  gives_opt (P := fun o => o = none) (gives_never he rfl) (fun _ => rfl) (fun _ h => nomatch h)

theorem gives_notP : Gives G S A (.notP e) t (fun o => o = none ∨ o = some ([.nil], t)) := by
  intro st s r ⟨n, h⟩
  cases n with
  | zero => cases h
  | succ n =>
    unfold runV at h
    cases hr : runV G S A n e st s t with
    | none => rw [hr] at h; cases h
    | some q => rw [hr] at h; cases q <;> cases h <;> first | exact .inl rfl | exact .inr rfl

theorem gives_notP_never (he : Never G S e t) : Gives G S A (.notP e) t (fun o => o = some ([.nil], t)) := by
  intro st s r hr
  rcases gives_notP _ _ _ hr with h | h
  · have := yields_notP he _ _ _ hr.erase
    rw [ResV.out_rest, h] at this; cases this
  · exact h

theorem gives_andP : Gives G S A (.andP e) t (fun o => o = none ∨ o = some ([.nil], t)) := by
  intro st s r ⟨n, h⟩
  cases n with
  | zero => cases h
  | succ n =>
    unfold runV at h
    cases hr : runV G S A n e st s t with
    | none => rw [hr] at h; cases h
    | some q => rw [hr] at h; cases q <;> cases h <;> first | exact .inl rfl | exact .inr rfl

theorem gives_pred {id : Nat} : Gives G S A (.pred id) t (fun o => o = none ∨ o = some ([.nil], t)) := by
  intro st s r ⟨n, h⟩
  cases n with
  | zero => cases h
  | succ n =>
    unfold runV at h
    cases hp : S.pred id s st t with
    | mk b s' => rw [hp] at h; cases b <;> cases h <;> first | exact .inl rfl | exact .inr rfl

theorem gives_state {id : Nat} : Gives G S A (.state id) t (fun o => o = some ([.nil], t)) := by
  intro st s r ⟨n, h⟩
  cases n with
  | zero => cases h
  | succ n => cases h; rfl

theorem gives_rule {i : Nat} (h : Gives G S A (G i) t P) : Gives G S A (.rule i) t P := by
  intro st s r ⟨n, hr⟩
  cases n with
  | zero => cases hr
  | succ n => exact h _ _ _ ⟨n, hr⟩

theorem gives_act {id : Nat} (h : Gives G S A e t P) (hP : P none → Q none)
    (hA : ∀ s v u, P (some (v, u)) → Q (some ([A id s v (span t u)], u))) : Gives G S A (.act id e) t Q := by
  intro st s r ⟨n, hr⟩
  cases n with
  | zero => cases hr
  | succ n =>
    unfold runV at hr
    cases h1 : runV G S A n e st s t with
    | none => rw [h1] at hr; cases hr
    | some q =>
      rw [h1] at hr
      have hp := h _ _ _ ⟨n, h1⟩
      cases q with
      | fail s1 => cases hr; exact hP hp
      | ok s1 v u => cases hr; exact hA _ _ _ hp

theorem gives_scope (h : Gives G S A e t P) (hP : P none → Q none)
    (hA : ∀ v u, P (some (v, u)) → Q (some ([.slice v], u))) : Gives G S A (.scope e) t Q := by
  intro st s r ⟨n, hr⟩
  cases n with
  | zero => cases hr
  | succ n =>
    unfold runV at hr
    cases h1 : runV G S A n e t s t with
    | none => rw [h1] at hr; cases hr
    | some q =>
      rw [h1] at hr
      have hp := h _ _ _ ⟨n, h1⟩
      cases q with
      | fail s1 => cases hr; exact hP hp
      | ok s1 v u => cases hr; exact hA _ _ hp

/-- A loop: when the body fails on `t` (nothing is collected), or goes on. -/
theorem gives_star (h : Gives G S A e t P) (h0 : P none → Q (some ([.slice []], t)))
    (h1 : ∀ v u, P (some (v, u)) → Gives G S A (.star e) u (fun o => Q (o.map (fun x => (consVals v x.1, x.2))))) :
    Gives G S A (.star e) t Q := by
  intro st s r ⟨n, hr⟩
  cases n with
  | zero => cases hr
  | succ n =>
    unfold runV at hr
    cases hb : runV G S A n e st s t with
    | none => rw [hb] at hr; cases hr
    | some q =>
      rw [hb] at hr
      have hp := h _ _ _ ⟨n, hb⟩
      cases q with
      | fail s1 => cases hr; exact h0 hp
      | ok s1 v u =>
        dsimp only at hr
        cases h2 : runV G S A n (.star e) st s1 u with
        | none => rw [h2] at hr; cases hr
        | some q =>
          rw [h2] at hr
          have hq := h1 v u hp _ _ _ ⟨n, h2⟩
          cases q <;> cases hr <;> exact hq

theorem gives_plus (h : Gives G S A e t P) (h0 : P none → Q none)
    (h1 : ∀ v u, P (some (v, u)) → Gives G S A (.star e) u (fun o => Q (o.map (fun x => (consVals v x.1, x.2))))) :
    Gives G S A (.plus e) t Q := by
  intro st s r ⟨n, hr⟩
  cases n with
  | zero => cases hr
  | succ n =>
    unfold runV at hr
    cases hb : runV G S A n e st s t with
    | none => rw [hb] at hr; cases hr
    | some q =>
      rw [hb] at hr
      have hp := h _ _ _ ⟨n, hb⟩
      cases q with
      | fail s1 => cases hr; exact h0 hp
      | ok s1 v u =>
        dsimp only at hr
        cases h2 : runV G S A n (.star e) st s1 u with
        | none => rw [h2] at hr; cases hr
        | some q =>
          rw [h2] at hr
          have hq := h1 v u hp _ _ _ ⟨n, h2⟩
          cases q <;> cases hr <;> exact hq

end Peg
end Verif
