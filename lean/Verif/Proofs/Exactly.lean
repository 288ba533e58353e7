import Verif.Proofs.Values

/-!
Expressions that match, with known values: `Exactly st e t v u` says that `e` on `t`, in a sequence that began at `st`, gives the values `v` and
leaves `u`, whenever the interpreter ends.
-/
namespace Verif
namespace Peg
open Walk (Any)

variable {σ : Type} {G : Nat → Exp} {S : Sem σ} {A : Peg.Code σ}

variable (G S A) in
def Exactly (st : Text) (e : Exp) (t : Text) (v : List Any) (u : Text) : Prop :=
  ∀ s r, EvalV G S A e st s t r → r.out = some (v, u)

variable {a b e : Exp} {st t u x : Text} {v w vs : List Any}

theorem Gives.exactly (h : Gives G S A e t (fun o => o = some (v, u))) : Exactly G S A st e t v u := fun s r hr => h st s r hr

theorem exactly_seq (ha : Exactly G S A st a t v u) (hb : Exactly G S A st b u w x) : Exactly G S A st (.seq a b) t (v ++ w) x := by
  rintro s r ⟨n, h⟩
  cases n with
  | zero => cases h
  | succ n =>
    unfold runV at h
    cases h1 : runV G S A n a st s t with
    | none => rw [h1] at h; cases h
    | some q =>
      rw [h1] at h
      have hp := ha _ _ ⟨n, h1⟩
      cases q with
      | fail s1 => cases hp
      | ok s1 v' u' =>
        cases hp
        dsimp only at h
        cases h2 : runV G S A n b st s1 u with
        | none => rw [h2] at h; cases h
        | some q =>
          rw [h2] at h
          have hq := hb _ _ ⟨n, h2⟩
          cases q with
          | fail s2 => cases hq
          | ok s2 w' u'' => cases hq; cases h; rfl

theorem exactly_alt_left (ha : Exactly G S A st a t v u) : Exactly G S A st (.alt a b) t v u := by
  rintro s r ⟨n, h⟩
  cases n with
  | zero => cases h
  | succ n =>
    unfold runV at h
    cases h1 : runV G S A n a st s t with
    | none => rw [h1] at h; cases h
    | some q =>
      rw [h1] at h
      have hp := ha _ _ ⟨n, h1⟩
      cases q with
      | fail s1 => cases hp
      | ok s1 v' u' => cases h; exact hp

theorem exactly_alt_right (ha : Never G S a t) (hb : Exactly G S A st b t v u) : Exactly G S A st (.alt a b) t v u := by
  rintro s r ⟨n, h⟩
  cases n with
  | zero => cases h
  | succ n =>
    unfold runV at h
    cases h1 : runV G S A n a st s t with
    | none => rw [h1] at h; cases h
    | some q =>
      rw [h1] at h
      have hp := ha _ _ _ (EvalV.erase ⟨n, h1⟩)
      cases q with
      | fail s1 => exact hb _ _ ⟨n, h⟩
      | ok s1 v' u' => cases hp

theorem exactly_opt (he : Exactly G S A st e t v u) : Exactly G S A st (.opt e) t v u := by
  rintro s r ⟨n, h⟩
  cases n with
  | zero => cases h
  | succ n =>
    unfold runV at h
    cases hr : runV G S A n e st s t with
    | none => rw [hr] at h; cases h
    | some q =>
      rw [hr] at h
      have hp := he _ _ ⟨n, hr⟩
      cases q with
      | fail s1 => cases hp
      | ok s1 v u => cases h; exact hp

theorem exactly_opt_never (he : Never G S e t) : Exactly G S A st (.opt e) t [.nil] t := (gives_opt_never he).exactly

theorem exactly_andP (he : Sure G S e t) : Exactly G S A st (.andP e) t [.nil] t := by
  intro s r hr
  rcases gives_andP _ _ _ hr with h | h
  · have := yields_andP he _ _ _ hr.erase
    rw [ResV.out_rest, h] at this; cases this
  · exact h

theorem exactly_notP (he : Never G S e t) : Exactly G S A st (.notP e) t [.nil] t := (gives_notP_never he).exactly

theorem exactly_state {id : Nat} : Exactly G S A st (.state id) t [.nil] t := gives_state.exactly

/-- Only where the sequence began at `st`. -/
theorem exactly_pred {id : Nat} (h : ∀ s, (S.pred id s st t).1 = true) : Exactly G S A st (.pred id) t [.nil] t := by
  rintro s r ⟨n, hr⟩
  cases n with
  | zero => cases hr
  | succ n =>
    unfold runV at hr
    have hb := h s
    cases hp : S.pred id s st t with
    | mk b s' => rw [hp] at hr hb; cases hb; cases hr; rfl

theorem exactly_rule {i : Nat} (h : Exactly G S A t (G i) t v u) : Exactly G S A st (.rule i) t v u := by
  rintro s r ⟨n, hr⟩
  cases n with
  | zero => cases hr
  | succ n => exact h _ _ ⟨n, hr⟩

theorem exactly_act {id : Nat} {y : Any} (h : Exactly G S A st e t v u) (hA : ∀ s, A id s v (span t u) = y) :
    Exactly G S A st (.act id e) t [y] u := by
  rintro s r ⟨n, hr⟩
  cases n with
  | zero => cases hr
  | succ n =>
    unfold runV at hr
    cases h1 : runV G S A n e st s t with
    | none => rw [h1] at hr; cases hr
    | some q =>
      rw [h1] at hr
      have hp := h _ _ ⟨n, h1⟩
      cases q with
      | fail s1 => cases hp
      | ok s1 v u => cases hp; cases hr; rw [← hA s1]; rfl

theorem exactly_scope (h : Exactly G S A t e t v u) : Exactly G S A st (.scope e) t [.slice v] u := by
  rintro s r ⟨n, hr⟩
  cases n with
  | zero => cases hr
  | succ n =>
    unfold runV at hr
    cases h1 : runV G S A n e t s t with
    | none => rw [h1] at hr; cases hr
    | some q =>
      rw [h1] at hr
      have hp := h _ _ ⟨n, h1⟩
      cases q with
      | fail s1 => cases hp
      | ok s1 v u => cases hp; cases hr; rfl

theorem exactly_star_stop (h : Never G S e t) : Exactly G S A st (.star e) t [.slice []] t := by
  rintro s r ⟨n, hr⟩
  cases n with
  | zero => cases hr
  | succ n =>
    unfold runV at hr
    cases h1 : runV G S A n e st s t with
    | none => rw [h1] at hr; cases hr
    | some q =>
      rw [h1] at hr
      have hp := h _ _ _ (EvalV.erase ⟨n, h1⟩)
      cases q with
      | fail s1 => cases hr; rfl
      | ok s1 v u => cases hp

theorem exactly_star_step (h : Exactly G S A st e t v u) (h' : Exactly G S A st (.star e) u [.slice vs] x) :
    Exactly G S A st (.star e) t [.slice (v ++ vs)] x := by
  rintro s r ⟨n, hr⟩
  cases n with
  | zero => cases hr
  | succ n =>
    unfold runV at hr
    cases h1 : runV G S A n e st s t with
    | none => rw [h1] at hr; cases hr
    | some q =>
      rw [h1] at hr
      have hp := h _ _ ⟨n, h1⟩
      cases q with
      | fail s1 => cases hp
      | ok s1 v' u' =>
        cases hp
        dsimp only at hr
        cases h2 : runV G S A n (.star e) st s1 u with
        | none => rw [h2] at hr; cases hr
        | some q =>
          rw [h2] at hr
          have hq := h' _ _ ⟨n, h2⟩
          cases q with
          | fail s2 => cases hq
          | ok s2 w u'' => cases hq; cases hr; rfl

/-- An expression whose values do not matter. -/
theorem exactly_of_yields {y : Any} {id : Nat} (h : Yields G S e t (some u)) (hA : ∀ s v, A id s v (span t u) = y) :
    Exactly G S A st (.act id e) t [y] u := by
  rintro s r ⟨n, hr⟩
  cases n with
  | zero => cases hr
  | succ n =>
    unfold runV at hr
    cases h1 : runV G S A n e st s t with
    | none => rw [h1] at hr; cases hr
    | some q =>
      rw [h1] at hr
      have hp := h _ _ _ (EvalV.erase ⟨n, h1⟩)
      cases q with
      | fail s1 => cases hp
      | ok s1 v u => cases hp; cases hr; rw [← hA s1 v]; rfl

/-! ### One result -/

/-- More depth does not change the result. -/
theorem runV_mono : ∀ (n : Nat) (e : Exp) (st : Text) (s : σ) (t : Text) (r : ResV σ),
    runV G S A n e st s t = some r → runV G S A (n + 1) e st s t = some r := by
  intro n
  induction n with
  | zero => intro e st s t r h; cases h
  | succ n ih =>
    intro e st s t r h
    cases e with
    | eps | any | lit l | litI l | cls c | pred id | state id => exact h
    | rule i => exact ih (G i) t s t r h
    | seq a b =>
      unfold runV at h ⊢
      cases ha : runV G S A n a st s t with
      | none => rw [ha] at h; cases h
      | some ra =>
        rw [ih _ _ _ _ _ ha]
        rw [ha] at h
        cases ra with
        | fail s' => exact h
        | ok s' v u =>
          dsimp only at h ⊢
          cases hb : runV G S A n b st s' u with
          | none => rw [hb] at h; cases h
          | some rb => rw [ih _ _ _ _ _ hb]; rw [hb] at h; exact h
    | alt a b =>
      unfold runV at h ⊢
      cases ha : runV G S A n a st s t with
      | none => rw [ha] at h; cases h
      | some ra =>
        rw [ih _ _ _ _ _ ha]
        rw [ha] at h
        cases ra with
        | fail s' => exact ih _ _ _ _ _ h
        | ok s' v u => exact h
    | star e | plus e =>
      unfold runV at h ⊢
      cases ha : runV G S A n e st s t with
      | none => rw [ha] at h; cases h
      | some ra =>
        rw [ih _ _ _ _ _ ha]
        rw [ha] at h
        cases ra with
        | fail s' => exact h
        | ok s' v u =>
          dsimp only at h ⊢
          cases hb : runV G S A n (.star e) st s' u with
          | none => rw [hb] at h; cases h
          | some rb => rw [ih _ _ _ _ _ hb]; rw [hb] at h; exact h
    | opt e | andP e | notP e | act id e =>
      unfold runV at h ⊢
      cases ha : runV G S A n e st s t with
      | none => rw [ha] at h; cases h
      | some ra =>
        rw [ih _ _ _ _ _ ha]
        rw [ha] at h
        cases ra with
        | fail s' => exact h
        | ok s' v u => exact h
    | scope e =>
      unfold runV at h ⊢
      cases ha : runV G S A n e t s t with
      | none => rw [ha] at h; cases h
      | some ra =>
        rw [ih _ _ _ _ _ ha]
        rw [ha] at h
        cases ra with
        | fail s' => exact h
        | ok s' v u => exact h

theorem runV_le {n m : Nat} (hnm : n ≤ m) {s : σ} {r : ResV σ} (h : runV G S A n e st s t = some r) : runV G S A m e st s t = some r := by
  induction hnm with
  | refl => exact h
  | step _ ih => exact runV_mono _ _ _ _ _ _ ih

theorem runV_one {n m : Nat} {s : σ} {r q : ResV σ} (h : runV G S A n e st s t = some r) (h' : runV G S A m e st s t = some q) : r = q := by
  have h1 := runV_le (Nat.le_max_left n m) h
  have h2 := runV_le (Nat.le_max_right n m) h'
  rw [h1] at h2
  exact Option.some.inj h2

/-! ### Expressions that begin with literals -/

/-- Does not take anything. -/
def Exp.still : Exp → Bool
  | .notP _ | .andP _ | .pred _ | .state _ => true
  | _ => false

/-- `e` begins with a literal whose first character is in `F` (`n` bounds the depth of the search). -/
def starts (G : Nat → Exp) (F : List Char) : Nat → Exp → Bool
  | 0, _ => false
  | _ + 1, .lit (a :: _) => a != '\uFFFD' && F.contains a
  | n + 1, .seq a b => starts G F n a || (a.still && starts G F n b)
  | n + 1, .alt a b => starts G F n a && starts G F n b
  | n + 1, .rule i => starts G F n (G i)
  | n + 1, .act _ e => starts G F n e
  | n + 1, .scope e => starts G F n e
  | n + 1, .plus e => starts G F n e
  | _ + 1, _ => false

theorem still_rest {s s' : σ} (ha : a.still = true) (h : Eval G S a st s t (.ok s' u)) : u = t := by
  cases a with
  | notP e =>
    rcases eval_notP.mp h with ⟨_, _, h⟩ | ⟨_, _, _, h⟩ <;> cases h
    rfl
  | andP e =>
    rcases eval_andP.mp h with ⟨_, _, h⟩ | ⟨_, _, _, h⟩ <;> cases h
    rfl
  | pred id =>
    have := eval_pred.mp h
    cases hp : S.pred id s st t with
    | mk b y => rw [hp] at this; cases b <;> cases this; rfl
  | state id => cases eval_state.mp h; rfl
  | _ => cases ha

theorem starts_never {F : List Char} {c : Char} (hc : c ∉ F) : ∀ (n : Nat) (e : Exp), starts G F n e = true → Never G S e (c :: t)
  | 0, _, h => nomatch h
  | n + 1, .lit (a :: l), h => by
    have h : (a != '\uFFFD' && F.contains a) = true := h
    rw [Bool.and_eq_true] at h
    have ha : a ∈ F := by simpa using h.2
    refine yields_lit.to ?_
    unfold matchLit
    rw [if_neg (fun e : a = c => hc (e ▸ ha))]
  | n + 1, .seq a b, h => by
    have h : (starts G F n a || (a.still && starts G F n b)) = true := h
    rcases Bool.or_eq_true_iff.1 h with h | h
    · exact never_seq (starts_never hc n a h)
    · rw [Bool.and_eq_true] at h
      intro st s r hr
      rcases eval_seq.mp hr with ⟨_, _, rfl⟩ | ⟨s1, u, h1, h2⟩
      · rfl
      · rw [still_rest h.1 h1] at h2
        exact starts_never hc n b h.2 _ _ _ h2
  | n + 1, .alt a b, h => by
    have h : (starts G F n a && starts G F n b) = true := h
    rw [Bool.and_eq_true] at h
    exact yields_alt_right (starts_never hc n a h.1) (starts_never hc n b h.2)
  | n + 1, .rule i, h => yields_rule (starts_never hc n (G i) h)
  | n + 1, .act _ e, h => yields_act (starts_never hc n e h)
  | n + 1, .scope e, h => yields_scope (starts_never hc n e h)
  | n + 1, .plus e, h => never_plus (starts_never hc n e h)
  | n + 1, .lit [], h => nomatch h
  | n + 1, .eps, h => nomatch h
  | n + 1, .any, h => nomatch h
  | n + 1, .litI _, h => nomatch h
  | n + 1, .cls _, h => nomatch h
  | n + 1, .star _, h => nomatch h
  | n + 1, .opt _, h => nomatch h
  | n + 1, .andP _, h => nomatch h
  | n + 1, .notP _, h => nomatch h
  | n + 1, .pred _, h => nomatch h
  | n + 1, .state _, h => nomatch h

end Peg
end Verif
