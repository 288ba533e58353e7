import Verif.Proofs.Exactly
import Verif.Proofs.Keeps

/-!
Expressions with a view of the state: `Holds f x st e t Q` says that every result of `e` on `t`, from a state in which the view `f` is `x`, satisfies
`Q`, as does the view after it. The view is not restored when the parser goes back.
-/
namespace Verif
namespace Peg
open Walk (Any)

variable {σ α : Type} (G : Nat → Exp) (S : Sem σ) (A : Peg.Code σ) (f : σ → α)

/-- What is found, with the view of the state. -/
def Holds (x : α) (st : Text) (e : Exp) (t : Text) (Q : Option (List Any × Text) → α → Prop) : Prop :=
  ∀ s r, f s = x → EvalV G S A e st s t r → Q r.out (f r.erase.st)

/-- The view is not restored. -/
def Lasting : Prop := ∀ a b, f (S.restore a b) = f b

variable {G S A f} {a b e : Exp} {st t u : Text} {x : α} {P Q : Option (List Any × Text) → α → Prop}

theorem Holds.mono (h : Holds G S A f x st e t P) (hPQ : ∀ o y, P o y → Q o y) : Holds G S A f x st e t Q :=
  fun s r hs hr => hPQ _ _ (h s r hs hr)

theorem holds_seq (ha : Holds G S A f x st a t P) (h0 : ∀ y, P none y → Q none y)
    (h1 : ∀ v u y, P (some (v, u)) y → Holds G S A f y st b u (fun o z => Q (o.map (fun p => (v ++ p.1, p.2))) z)) :
    Holds G S A f x st (.seq a b) t Q := by
  rintro s r hs ⟨n, h⟩
  cases n with
  | zero => cases h
  | succ n =>
    unfold runV at h
    cases ha' : runV G S A n a st s t with
    | none => rw [ha'] at h; cases h
    | some q =>
      rw [ha'] at h
      have hp := ha _ _ hs ⟨n, ha'⟩
      cases q with
      | fail s1 => cases h; exact h0 _ hp
      | ok s1 v u =>
        dsimp only at h
        cases hb' : runV G S A n b st s1 u with
        | none => rw [hb'] at h; cases h
        | some q =>
          rw [hb'] at h
          have hq := h1 v u _ hp _ _ rfl ⟨n, hb'⟩
          cases q <;> cases h <;> exact hq

theorem holds_alt (hf : Lasting S f) (ha : Holds G S A f x st a t P) (h1 : ∀ p y, P (some p) y → Q (some p) y)
    (h0 : ∀ y, P none y → Holds G S A f y st b t Q) : Holds G S A f x st (.alt a b) t Q := by
  rintro s r hs ⟨n, h⟩
  cases n with
  | zero => cases h
  | succ n =>
    unfold runV at h
    cases ha' : runV G S A n a st s t with
    | none => rw [ha'] at h; cases h
    | some q =>
      rw [ha'] at h
      have hp := ha _ _ hs ⟨n, ha'⟩
      cases q with
      | fail s1 => exact h0 _ hp _ _ (hf _ _) ⟨n, h⟩
      | ok s1 v u => cases h; exact h1 _ _ hp

theorem holds_rule {i : Nat} (h : Holds G S A f x t (G i) t Q) : Holds G S A f x st (.rule i) t Q := by
  rintro s r hs ⟨n, hr⟩
  cases n with
  | zero => cases hr
  | succ n => exact h s r hs ⟨n, hr⟩

theorem holds_act {id : Nat} (h : Holds G S A f x st e t P) (h0 : ∀ y, P none y → Q none y)
    (h1 : ∀ s v u, P (some (v, u)) (f s) → Q (some ([A id s v (span t u)], u)) (f (S.act id s t u))) : Holds G S A f x st (.act id e) t Q := by
  rintro s r hs ⟨n, hr⟩
  cases n with
  | zero => cases hr
  | succ n =>
    unfold runV at hr
    cases he : runV G S A n e st s t with
    | none => rw [he] at hr; cases hr
    | some q =>
      rw [he] at hr
      have hp := h _ _ hs ⟨n, he⟩
      cases q with
      | fail s1 => cases hr; exact h0 _ hp
      | ok s1 v u => cases hr; exact h1 _ _ _ hp

theorem holds_scope (hf : Lasting S f) (h : Holds G S A f x t e t (fun o y => Q (o.map (fun p => ([.slice p.1], p.2))) y)) : Holds G S A f x st (.scope e) t Q := by
  rintro s r hs ⟨n, hr⟩
  cases n with
  | zero => cases hr
  | succ n =>
    unfold runV at hr
    cases he : runV G S A n e t s t with
    | none => rw [he] at hr; cases hr
    | some q =>
      rw [he] at hr
      have hp := h _ _ hs ⟨n, he⟩
      cases q with
      | fail s1 =>
        cases hr
        show Q none (f (S.restore _ _))
        rw [hf]; exact hp
      | ok s1 v u => cases hr; exact hp

theorem holds_opt (h : Holds G S A f x st e t P) (h0 : ∀ y, P none y → Q (some ([.nil], t)) y) (h1 : ∀ p y, P (some p) y → Q (some p) y) :
    Holds G S A f x st (.opt e) t Q := by
  rintro s r hs ⟨n, hr⟩
  cases n with
  | zero => cases hr
  | succ n =>
    unfold runV at hr
    cases he : runV G S A n e st s t with
    | none => rw [he] at hr; cases hr
    | some q =>
      rw [he] at hr
      have hp := h _ _ hs ⟨n, he⟩
      cases q with
      | fail s1 => cases hr; exact h0 _ hp
      | ok s1 v u => cases hr; exact h1 _ _ hp

theorem holds_andP (hf : Lasting S f) (h : Holds G S A f x st e t P) (h0 : ∀ y, P none y → Q none y) (h1 : ∀ p y, P (some p) y → Q (some ([.nil], t)) y) :
    Holds G S A f x st (.andP e) t Q := by
  rintro s r hs ⟨n, hr⟩
  cases n with
  | zero => cases hr
  | succ n =>
    unfold runV at hr
    cases he : runV G S A n e st s t with
    | none => rw [he] at hr; cases hr
    | some q =>
      rw [he] at hr
      have hp := h _ _ hs ⟨n, he⟩
      cases q with
      | fail s1 =>
        cases hr
        show Q none (f (S.restore _ _))
        rw [hf]; exact h0 _ hp
      | ok s1 v u =>
        cases hr
        show Q _ (f (S.restore _ _))
        rw [hf]; exact h1 _ _ hp

theorem holds_notP (hf : Lasting S f) (h : Holds G S A f x st e t P) (h0 : ∀ y, P none y → Q (some ([.nil], t)) y) (h1 : ∀ p y, P (some p) y → Q none y) :
    Holds G S A f x st (.notP e) t Q := by
  rintro s r hs ⟨n, hr⟩
  cases n with
  | zero => cases hr
  | succ n =>
    unfold runV at hr
    cases he : runV G S A n e st s t with
    | none => rw [he] at hr; cases hr
    | some q =>
      rw [he] at hr
      have hp := h _ _ hs ⟨n, he⟩
      cases q with
      | fail s1 =>
        cases hr
        show Q _ (f (S.restore _ _))
        rw [hf]; exact h0 _ hp
      | ok s1 v u =>
        cases hr
        show Q none (f (S.restore _ _))
        rw [hf]; exact h1 _ _ hp

theorem holds_star (h : Holds G S A f x st e t P) (h0 : ∀ y, P none y → Q (some ([.slice []], t)) y)
    (h1 : ∀ v u y, P (some (v, u)) y → Holds G S A f y st (.star e) u (fun o z => Q (o.map (fun p => (consVals v p.1, p.2))) z)) :
    Holds G S A f x st (.star e) t Q := by
  rintro s r hs ⟨n, hr⟩
  cases n with
  | zero => cases hr
  | succ n =>
    unfold runV at hr
    cases he : runV G S A n e st s t with
    | none => rw [he] at hr; cases hr
    | some q =>
      rw [he] at hr
      have hp := h _ _ hs ⟨n, he⟩
      cases q with
      | fail s1 => cases hr; exact h0 _ hp
      | ok s1 v u =>
        dsimp only at hr
        cases hl : runV G S A n (.star e) st s1 u with
        | none => rw [hl] at hr; cases hr
        | some q =>
          rw [hl] at hr
          have hq := h1 v u _ hp _ _ rfl ⟨n, hl⟩
          cases q <;> cases hr <;> exact hq

theorem holds_plus (h : Holds G S A f x st e t P) (h0 : ∀ y, P none y → Q none y)
    (h1 : ∀ v u y, P (some (v, u)) y → Holds G S A f y st (.star e) u (fun o z => Q (o.map (fun p => (consVals v p.1, p.2))) z)) :
    Holds G S A f x st (.plus e) t Q := by
  rintro s r hs ⟨n, hr⟩
  cases n with
  | zero => cases hr
  | succ n =>
    unfold runV at hr
    cases he : runV G S A n e st s t with
    | none => rw [he] at hr; cases hr
    | some q =>
      rw [he] at hr
      have hp := h _ _ hs ⟨n, he⟩
      cases q with
      | fail s1 => cases hr; exact h0 _ hp
      | ok s1 v u =>
        dsimp only at hr
        cases hl : runV G S A n (.star e) st s1 u with
        | none => rw [hl] at hr; cases hr
        | some q =>
          rw [hl] at hr
          have hq := h1 v u _ hp _ _ rfl ⟨n, hl⟩
          cases q <;> cases hr <;> exact hq

/-- A predicate that looks at the view. -/
theorem holds_pred {id : Nat} {b : Bool} (hk : ∀ s, f (S.pred id s st t).2 = f s) (h : ∀ s, f s = x → (S.pred id s st t).1 = b) :
    Holds G S A f x st (.pred id) t (fun o y => y = x ∧ o = if b then some ([.nil], t) else none) := by
  rintro s r hs ⟨n, hr⟩
  cases n with
  | zero => cases hr
  | succ n =>
    unfold runV at hr
    have h2 := h s hs
    have h3 := hk s
    cases hp : S.pred id s st t with
    | mk c y =>
      rw [hp] at hr h2 h3
      dsimp only at h2 h3
      subst h2
      cases c <;> cases hr
      · exact ⟨h3.trans hs, rfl⟩
      · exact ⟨h3.trans hs, rfl⟩

/-- An expression that does not change the view. -/
def Still (G : Nat → Exp) (S : Sem σ) (f : σ → α) (e : Exp) : Prop := ∀ st s t r, Eval G S e st s t r → f r.st = f s

theorem Gives.holds {R : Option (List Any × Text) → Prop} (h : Gives G S A e t R) (hk : Still G S f e) : Holds G S A f x st e t (fun o y => y = x ∧ R o) :=
  fun _ _ hs hr => ⟨(hk _ _ _ _ hr.erase).trans hs, h _ _ _ hr⟩

theorem Never.holds (h : Never G S e t) (hk : Still G S f e) : Holds G S A f x st e t (fun o y => y = x ∧ o = none) :=
  (gives_never (P := fun o => o = none) h rfl).holds hk

/-- Without the view. -/
theorem Gives.holds_any {R : Option (List Any × Text) → Prop} (h : Gives G S A e t R) : Holds G S A f x st e t (fun o _ => R o) :=
  fun _ _ _ hr => h _ _ _ hr

/-- `e` fails at a character that is not in `F` before it runs any action (`n` bounds the depth of the search). -/
def fails (G : Nat → Exp) (F : List Char) : Nat → Exp → Bool
  | 0, _ => false
  | _ + 1, .lit (a :: _) => a != '\uFFFD' && F.contains a
  | n + 1, .seq (.opt a) b => fails G F n a && fails G F n b
  | n + 1, .seq (.pred _) b => fails G F n b
  | n + 1, .seq (.notP a) b => fails G F n a && fails G F n b
  | n + 1, .seq a _ => fails G F n a
  | n + 1, .alt a b => fails G F n a && fails G F n b
  | n + 1, .rule i => fails G F n (G i)
  | n + 1, .act _ e => fails G F n e
  | n + 1, .scope e => fails G F n e
  | n + 1, .plus e => fails G F n e
  | n + 1, .andP e => fails G F n e
  | _ + 1, _ => false

/-- Expressions that begin with a literal fail at other characters, without changing the view. -/
theorem fails_still (hf : Lasting S f) (hp : ∀ id s st t, f (S.pred id s st t).2 = f s) {F : List Char} {c : Char} (hc : c ∉ F) :
    ∀ (n : Nat) (e : Exp) {st t : Text} {s : σ} {r : Res σ}, fails G F n e = true → Eval G S e st s (c :: t) r → r.rest = none ∧ f r.st = f s := by
  intro n
  induction n with
  | zero => intro e st t s r h; cases h
  | succ n ih =>
    intro e st t s r h hr
    have seq : ∀ {a b : Exp}, fails G F n a = true → Eval G S (.seq a b) st s (c :: t) r → r.rest = none ∧ f r.st = f s := by
      intro a b ha hr
      rcases eval_seq.mp hr with ⟨s1, h1, rfl⟩ | ⟨s1, u, h1, h2⟩
      · exact ih a ha h1
      · have := (ih a ha h1).1; cases this
    cases e with
    | lit l =>
      cases l with
      | nil => cases h
      | cons a l =>
        have h : (a != '\uFFFD' && F.contains a) = true := h
        rw [Bool.and_eq_true] at h
        have ha : a ∈ F := by simpa using h.2
        rw [eval_lit.mp hr]
        unfold matchLit
        rw [if_neg (fun e : a = c => hc (e ▸ ha))]
        exact ⟨rfl, rfl⟩
    | seq a b =>
      cases a with
      | opt a =>
        have h : (fails G F n a && fails G F n b) = true := h
        rw [Bool.and_eq_true] at h
        rcases eval_seq.mp hr with ⟨s1, h1, rfl⟩ | ⟨s1, u, h1, h2⟩
        · rcases eval_opt.mp h1 with ⟨_, _, h⟩ | ⟨_, _, _, h⟩ <;> cases h
        · rcases eval_opt.mp h1 with ⟨s2, h3, h4⟩ | ⟨s2, u', h3, h4⟩
          · cases h4
            have i1 := ih a h.1 h3
            have i2 := ih b h.2 h2
            exact ⟨i2.1, i2.2.trans i1.2⟩
          · have := (ih a h.1 h3).1; cases this
      | pred id =>
        rcases eval_seq.mp hr with ⟨s1, h1, rfl⟩ | ⟨s1, u, h1, h2⟩
        · refine ⟨rfl, ?_⟩
          rw [eval_pred] at h1
          have := hp id s st (c :: t)
          cases hq : S.pred id s st (c :: t) with
          | mk b y => rw [hq] at h1 this; cases b <;> cases h1; exact this
        · have hu : u = c :: t ∧ f s1 = f s := by
            rw [eval_pred] at h1
            have := hp id s st (c :: t)
            cases hq : S.pred id s st (c :: t) with
            | mk b y => rw [hq] at h1 this; cases b <;> cases h1; exact ⟨rfl, this⟩
          rw [hu.1] at h2
          have i2 := ih b h h2
          exact ⟨i2.1, i2.2.trans hu.2⟩
      | notP a =>
        have h : (fails G F n a && fails G F n b) = true := h
        rw [Bool.and_eq_true] at h
        rcases eval_seq.mp hr with ⟨s1, h1, rfl⟩ | ⟨s1, u, h1, h2⟩
        · rcases eval_notP.mp h1 with ⟨s2, h3, h4⟩ | ⟨s2, u', h3, h4⟩
          · cases h4
          · have := (ih a h.1 h3).1; cases this
        · rcases eval_notP.mp h1 with ⟨s2, h3, h4⟩ | ⟨s2, u', h3, h4⟩
          · cases h4
            have i1 := ih a h.1 h3
            have i2 := ih b h.2 h2
            exact ⟨i2.1, i2.2.trans ((hf _ _).trans i1.2)⟩
          · cases h4
      | _ => exact seq h hr
    | alt a b =>
      have h : (fails G F n a && fails G F n b) = true := h
      rw [Bool.and_eq_true] at h
      rcases eval_alt.mp hr with ⟨s1, h1, h2⟩ | ⟨s1, v, h1, rfl⟩
      · have i1 := ih a h.1 h1
        have i2 := ih b h.2 h2
        exact ⟨i2.1, i2.2.trans ((hf _ _).trans i1.2)⟩
      · have := (ih a h.1 h1).1; cases this
    | rule i => exact ih (G i) h (eval_rule.mp hr)
    | act id e =>
      rcases eval_act.mp hr with ⟨s1, h1, rfl⟩ | ⟨s1, v, h1, rfl⟩
      · exact ih e h h1
      · have := (ih e h h1).1; cases this
    | scope e =>
      rcases eval_scope.mp hr with ⟨s1, h1, rfl⟩ | ⟨s1, v, h1, rfl⟩
      · exact ⟨rfl, (hf _ _).trans (ih e h h1).2⟩
      · have := (ih e h h1).1; cases this
    | plus e =>
      rcases eval_plus.mp hr with ⟨s1, h1, rfl⟩ | ⟨s1, v, h1, h2⟩
      · exact ih e h h1
      · have := (ih e h h1).1; cases this
    | andP e =>
      rcases eval_andP.mp hr with ⟨s1, h1, rfl⟩ | ⟨s1, v, h1, rfl⟩
      · exact ⟨rfl, (hf _ _).trans (ih e h h1).2⟩
      · have := (ih e h h1).1; cases this
    | _ => cases h

theorem fails_holds (hf : Lasting S f) (hp : ∀ id s st t, f (S.pred id s st t).2 = f s) {F : List Char} {c : Char} (hc : c ∉ F) (n : Nat) {e : Exp}
    (h : fails G F n e = true) : Holds G S A f x st e (c :: t) (fun o y => y = x ∧ o = none) := by
  intro s r hs hr
  obtain ⟨h1, h2⟩ := fails_still (f := f) hf hp hc n e h hr.erase
  rw [ResV.out_rest] at h1
  refine ⟨h2.trans hs, ?_⟩
  cases ho : r.out with
  | none => rfl
  | some q => rw [ho] at h1; cases h1

end Peg
end Verif
