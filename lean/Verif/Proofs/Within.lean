import Verif.Proofs.Exactly
import Verif.Proofs.Keeps

/-!
Expressions that match in the states with a property: `Within P st e t W u` says that `e` on `t`, in a sequence that began at `st`, in a state
of `P`, gives values of `W` and leaves `u`, whenever the interpreter ends.
-/
namespace Verif
namespace Peg
open Walk (Any)

variable {σ : Type} {G : Nat → Exp} {S : Sem σ} {A : Peg.Code σ}

variable (G S A) in
def Within (P : σ → Prop) (st : Text) (e : Exp) (t : Text) (W : List Any → Prop) (u : Text) : Prop :=
  ∀ s r, P s → EvalV G S A e st s t r → ∃ v, r.out = some (v, u) ∧ W v

variable {P Q : σ → Prop} {a b e : Exp} {st t u x : Text} {v : List Any} {V W Z : List Any → Prop}

theorem Exactly.within (h : Exactly G S A st e t v u) : Within G S A P st e t (· = v) u := fun s r _ hr => ⟨v, h s r hr, rfl⟩

theorem Within.exactly (h : Within G S A (fun _ => True) st e t (· = v) u) : Exactly G S A st e t v u := by
  intro s r hr
  obtain ⟨w, h1, rfl⟩ := h s r trivial hr
  exact h1

theorem within_seq (ha : Within G S A P st a t V u) (hk : ∀ s r, P s → Eval G S a st s t r → Q r.st) (hb : Within G S A Q st b u W x)
    (hZ : ∀ v w, V v → W w → Z (v ++ w)) : Within G S A P st (.seq a b) t Z x := by
  rintro s r hs ⟨n, h⟩
  cases n with
  | zero => cases h
  | succ n =>
    unfold runV at h
    cases h1 : runV G S A n a st s t with
    | none => rw [h1] at h; cases h
    | some q =>
      rw [h1] at h
      obtain ⟨v, hp, hv⟩ := ha _ _ hs ⟨n, h1⟩
      have hq := hk _ _ hs (EvalV.erase ⟨n, h1⟩)
      cases q with
      | fail s1 => cases hp
      | ok s1 v' u' =>
        cases hp
        dsimp only at h
        cases h2 : runV G S A n b st s1 u with
        | none => rw [h2] at h; cases h
        | some q =>
          rw [h2] at h
          obtain ⟨w, hq, hw⟩ := hb _ _ hq ⟨n, h2⟩
          cases q with
          | fail s2 => cases hq
          | ok s2 w' u'' => cases hq; cases h; exact ⟨_, rfl, hZ _ _ hv hw⟩

theorem within_opt (he : Within G S A P st e t V u) : Within G S A P st (.opt e) t V u := by
  rintro s r hs ⟨n, h⟩
  cases n with
  | zero => cases h
  | succ n =>
    unfold runV at h
    cases hr : runV G S A n e st s t with
    | none => rw [hr] at h; cases h
    | some q =>
      rw [hr] at h
      have hp := he _ _ hs ⟨n, hr⟩
      cases q with
      | fail s1 => obtain ⟨_, h, _⟩ := hp; cases h
      | ok s1 v u => cases h; exact hp

theorem within_notP (he : ∀ s r, P s → Eval G S e st s t r → r.rest = none) : Within G S A P st (.notP e) t (· = [.nil]) t := by
  rintro s r hs ⟨n, h⟩
  cases n with
  | zero => cases h
  | succ n =>
    unfold runV at h
    cases hr : runV G S A n e st s t with
    | none => rw [hr] at h; cases h
    | some q =>
      rw [hr] at h
      have hp := he _ _ hs (EvalV.erase ⟨n, hr⟩)
      cases q with
      | fail s1 => cases h; exact ⟨_, rfl, rfl⟩
      | ok s1 v u => cases hp

theorem within_pred {id : Nat} (h : ∀ s, P s → (S.pred id s st t).1 = true) : Within G S A P st (.pred id) t (· = [.nil]) t := by
  rintro s r hs ⟨n, hr⟩
  cases n with
  | zero => cases hr
  | succ n =>
    unfold runV at hr
    have hb := h s hs
    cases hp : S.pred id s st t with
    | mk b s' => rw [hp] at hr hb; cases hb; cases hr; exact ⟨_, rfl, rfl⟩

theorem within_rule {i : Nat} (h : Within G S A P t (G i) t V u) : Within G S A P st (.rule i) t V u := by
  rintro s r hs ⟨n, hr⟩
  cases n with
  | zero => cases hr
  | succ n => exact h _ _ hs ⟨n, hr⟩

theorem within_act {id : Nat} (h : Within G S A P st e t V u) (hA : ∀ s v, V v → W [A id s v (span t u)]) :
    Within G S A P st (.act id e) t W u := by
  rintro s r hs ⟨n, hr⟩
  cases n with
  | zero => cases hr
  | succ n =>
    unfold runV at hr
    cases h1 : runV G S A n e st s t with
    | none => rw [h1] at hr; cases hr
    | some q =>
      rw [h1] at hr
      obtain ⟨v, hp, hv⟩ := h _ _ hs ⟨n, h1⟩
      cases q with
      | fail s1 => cases hp
      | ok s1 v' u' => cases hp; cases hr; exact ⟨_, rfl, hA _ _ hv⟩

theorem within_scope (h : Within G S A P t e t V u) (hW : ∀ v, V v → W [.slice v]) : Within G S A P st (.scope e) t W u := by
  rintro s r hs ⟨n, hr⟩
  cases n with
  | zero => cases hr
  | succ n =>
    unfold runV at hr
    cases h1 : runV G S A n e t s t with
    | none => rw [h1] at hr; cases hr
    | some q =>
      rw [h1] at hr
      obtain ⟨v, hp, hv⟩ := h _ _ hs ⟨n, h1⟩
      cases q with
      | fail s1 => cases hp
      | ok s1 v' u' => cases hp; cases hr; exact ⟨_, rfl, hW _ hv⟩

theorem within_star_stop (h : ∀ s r, P s → Eval G S e st s t r → r.rest = none) : Within G S A P st (.star e) t (· = [.slice []]) t := by
  rintro s r hs ⟨n, hr⟩
  cases n with
  | zero => cases hr
  | succ n =>
    unfold runV at hr
    cases h1 : runV G S A n e st s t with
    | none => rw [h1] at hr; cases hr
    | some q =>
      rw [h1] at hr
      have hp := h _ _ hs (EvalV.erase ⟨n, h1⟩)
      cases q with
      | fail s1 => cases hr; exact ⟨_, rfl, rfl⟩
      | ok s1 v u => cases hp

theorem within_star_step {vs : List Any} (h : Within G S A P st e t (· = v) u) (hk : ∀ s r, P s → Eval G S e st s t r → P r.st)
    (h' : Within G S A P st (.star e) u (· = [.slice vs]) x) : Within G S A P st (.star e) t (· = [.slice (v ++ vs)]) x := by
  rintro s r hs ⟨n, hr⟩
  cases n with
  | zero => cases hr
  | succ n =>
    unfold runV at hr
    cases h1 : runV G S A n e st s t with
    | none => rw [h1] at hr; cases hr
    | some q =>
      rw [h1] at hr
      obtain ⟨v', hp, rfl⟩ := h _ _ hs ⟨n, h1⟩
      have hq := hk _ _ hs (EvalV.erase ⟨n, h1⟩)
      cases q with
      | fail s1 => cases hp
      | ok s1 v' u' =>
        cases hp
        dsimp only at hr
        cases h2 : runV G S A n (.star e) st s1 u with
        | none => rw [h2] at hr; cases hr
        | some q =>
          rw [h2] at hr
          obtain ⟨w, hq, rfl⟩ := h' _ _ hq ⟨n, h2⟩
          cases q with
          | fail s2 => cases hq
          | ok s2 w' u'' => cases hq; cases hr; exact ⟨_, rfl, rfl⟩

/-- Expressions that have one value; `n` rules are followed. -/
def single (G : Nat → Exp) : Nat → Exp → Bool
  | n + 1, .alt a b => single G n a && single G n b
  | n + 1, .opt e => single G n e
  | n + 1, .rule i => single G n (G i)
  | _, .alt _ _ | _, .opt _ | _, .rule _ | _, .eps | _, .seq _ _ => false
  | _, _ => true

theorem consVals_one (v vs : List Any) : (consVals v vs).length = 1 := by
  unfold consVals
  split <;> rfl

theorem cons_one (v : List Any) : ∀ {r : ResV σ} {w : List Any} {u : Text}, (ResV.cons v r).out = some (w, u) → w.length = 1
  | .fail _, _, _, h => nomatch h
  | .ok _ _ _, _, _, h => by cases h; exact consVals_one _ _

theorem single_one : ∀ (k m n : Nat) (e : Exp), n + k ≤ m → single G k e = true → ∀ {st t u : Text} {s : σ} {r : ResV σ} {v : List Any},
    runV G S A n e st s t = some r → r.out = some (v, u) → v.length = 1
  | _, _, 0, _, _, _, _, _, _, _, _, _, h, _ => nomatch h
  | k, m, n + 1, e, hm, he, st, t, u, s, r, v, h, ho => by
    cases e with
    | eps => cases k <;> cases he
    | seq a b => cases k <;> cases he
    | any => cases t with
      | nil => cases h; cases ho
      | cons c t => cases h; cases ho; rfl
    | lit l =>
      unfold runV at h
      split at h <;> cases h <;> cases ho
      rfl
    | litI l =>
      unfold runV at h
      split at h <;> cases h <;> cases ho
      rfl
    | cls c => cases t with
      | nil => cases h; cases ho
      | cons x t =>
        unfold runV at h
        dsimp only at h
        split at h <;> cases h <;> cases ho
        rfl
    | alt a b =>
      cases k with
      | zero => cases he
      | succ k =>
        have he : (single G k a && single G k b) = true := he
        rw [Bool.and_eq_true] at he
        unfold runV at h
        cases h1 : runV G S A n a st s t with
        | none => rw [h1] at h; cases h
        | some q =>
          rw [h1] at h
          cases q with
          | fail s1 => exact single_one k (m - 1) n b (by omega) he.2 h ho
          | ok s1 v1 u1 => cases h; exact single_one k (m - 1) n a (by omega) he.1 h1 ho
    | star e =>
      unfold runV at h
      cases h1 : runV G S A n e st s t with
      | none => rw [h1] at h; cases h
      | some q =>
        rw [h1] at h
        cases q with
        | fail s1 => cases h; cases ho; rfl
        | ok s1 v1 u1 =>
          obtain ⟨q, _, rfl⟩ := Option.map_eq_some_iff.mp h
          exact cons_one _ ho
    | plus e =>
      unfold runV at h
      cases h1 : runV G S A n e st s t with
      | none => rw [h1] at h; cases h
      | some q =>
        rw [h1] at h
        cases q with
        | fail s1 => cases h; cases ho
        | ok s1 v1 u1 =>
          obtain ⟨q, _, rfl⟩ := Option.map_eq_some_iff.mp h
          exact cons_one _ ho
    | opt e =>
      cases k with
      | zero => cases he
      | succ k =>
        unfold runV at h
        cases h1 : runV G S A n e st s t with
        | none => rw [h1] at h; cases h
        | some q =>
          rw [h1] at h
          cases q with
          | fail s1 => cases h; cases ho; rfl
          | ok s1 v1 u1 => cases h; exact single_one k (m - 1) n e (by omega) he h1 ho
    | andP e =>
      unfold runV at h
      split at h <;> cases h <;> cases ho
      rfl
    | notP e =>
      unfold runV at h
      split at h <;> cases h <;> cases ho
      rfl
    | rule i =>
      cases k with
      | zero => cases he
      | succ k => exact single_one k (m - 1) n (G i) (by omega) he h ho
    | pred id =>
      unfold runV at h
      split at h <;> cases h <;> cases ho
      rfl
    | state id => cases h; cases ho; rfl
    | act id e =>
      unfold runV at h
      split at h <;> cases h <;> cases ho
      rfl
    | scope e =>
      unfold runV at h
      split at h <;> cases h <;> cases ho
      rfl

/-- One value, whatever it is. -/
theorem within_single {k : Nat} (he : single G k e = true) (h : ∀ s r, P s → Eval G S e st s t r → r.rest = some u) :
    Within G S A P st e t (fun v => ∃ x, v = [x]) u := by
  intro s r hs hr
  have := h s _ hs hr.erase
  rw [ResV.out_rest] at this
  obtain ⟨p, hp, rfl⟩ := Option.map_eq_some_iff.mp this
  obtain ⟨n, hn⟩ := hr
  have h1 := single_one k _ n e (Nat.le_refl _) he hn hp
  refine ⟨p.1, hp, ?_⟩
  cases hv : p.1 with
  | nil => rw [hv] at h1; cases h1
  | cons x w => cases w with
    | nil => exact ⟨x, rfl⟩
    | cons y w => rw [hv] at h1; cases h1

end Peg
end Verif
