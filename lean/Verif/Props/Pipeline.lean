import Verif.Model.Pipeline
/-! C10: the concurrent pipeline computes the sequential composition of its stages. -/
namespace Verif.C10
open Pipe

variable {σ α γ ε : Type}

/-! ### Specification: running the stages one after the other on the whole input -/

/-- One stage applied to a whole list of values, in order. -/
def runStage (fn : σ → α → σ × α) : σ → List α → List α
  | _, [] => []
  | s, x :: xs => (fn s x).2 :: runStage fn (fn s x).1 xs

/-- The state of a stage after a whole list of values. -/
def lastState (fn : σ → α → σ × α) (s : σ) (xs : List α) : σ := xs.foldl (fun s x => (fn s x).1) s

/-- All stages, one after the other. -/
def runAll : List (Stage σ α) → List α → List α
  | [], xs => xs
  | s :: ss, xs => runAll ss (runStage s.fn s.init xs)

/-- The states in which the stages end. -/
def statesAfter : List (Stage σ α) → List α → List σ
  | [], _ => []
  | s :: ss, xs => lastState s.fn s.init xs :: statesAfter ss (runStage s.fn s.init xs)

/-- The consumer applied to a list of values, up to the first error. -/
def fold (agg : γ → α → Except ε γ) : γ → List α → Except ε γ
  | g, [] => .ok g
  | g, x :: xs => match agg g x with
    | .ok g => fold agg g xs
    | .error e => .error e

/-! ### Proofs -/

/-- What will still come out of the last channel, given what is still to come from upstream. -/
def stream : List (Cell σ α) → Chan α → List α → List α
  | [], o, xs => o.q ++ xs
  | c :: cs, o, xs => stream cs o (c.hold.toList ++ runStage c.fn c.st (c.inp.q ++ xs))

/-- The final states of the stages. -/
def finals : List (Cell σ α) → List α → List σ
  | [], _ => []
  | c :: cs, xs => lastState c.fn c.st (c.inp.q ++ xs) :: finals cs (c.hold.toList ++ runStage c.fn c.st (c.inp.q ++ xs))

/-- Closedness: a channel is closed iff its sender has exited; without `done`, a goroutine only exits
when its input is closed and drained. -/
def Inv : Bool → List (Cell σ α) → Chan α → Prop
  | p, [], o => o.closed = p
  | p, c :: cs, o => c.inp.closed = p ∧ (c.exited = true → c.hold = none ∧ c.inp.q = [] ∧ c.inp.closed = true) ∧ Inv c.exited cs o

/-- The weaker closedness that also holds after `done`. -/
def InvDone : Bool → List (Cell σ α) → Chan α → Prop
  | p, [], o => o.closed = p
  | p, c :: cs, o => c.inp.closed = p ∧ (c.exited = true → c.hold = none) ∧ InvDone c.exited cs o

/-- Every channel but the first is within its capacity. -/
def Bounded (cap : Nat) : List (Cell σ α) → Chan α → Prop
  | [], o => o.q.length ≤ cap
  | c :: cs, o => c.inp.q.length ≤ cap ∧ Bounded cap cs o

def BoundedTail (cap : Nat) (s : Sys σ α γ ε) : Prop :=
  match s.cells with
  | [] => s.out.q.length ≤ cap
  | _ :: cs => Bounded cap cs s.out

theorem push_stream {cap : Nat} {x : α} {cs cs' : List (Cell σ α)} {o o' : Chan α} (h : push cap x cs o = some (cs', o')) (xs : List α) :
    stream cs' o' xs = stream cs o (x :: xs) ∧ finals cs' xs = finals cs (x :: xs) := by
  cases cs with
  | nil =>
    simp only [push] at h
    split at h
    · injection h with h; injection h with h1 h2; subst h1; subst h2; simp [stream, finals]
    · exact absurd h (by simp)
  | cons c cs =>
    simp only [push] at h
    split at h
    · injection h with h; injection h with h1 h2; subst h1; subst h2; simp [stream, finals]
    · exact absurd h (by simp)

theorem closeNext_stream (cs : List (Cell σ α)) (o : Chan α) (xs : List α) :
    stream (closeNext cs o).1 (closeNext cs o).2 xs = stream cs o xs ∧ finals (closeNext cs o).1 xs = finals cs xs := by
  cases cs <;> simp [closeNext, stream, finals]

theorem move_stream {cap : Nat} {c : Cell σ α} {cs cs' : List (Cell σ α)} {o o' : Chan α} (h : move cap c cs o = some (cs', o')) (xs : List α) :
    (c.inp.closed = true → xs = []) →
    stream cs' o' xs = stream (c :: cs) o xs ∧ finals cs' xs = finals (c :: cs) xs := by
  intro hx
  unfold move at h
  split at h
  · exact absurd h (by simp)
  · split at h
    · rename_i x hh
      cases hp : push cap x cs o with
      | none => rw [hp] at h; exact absurd h (by simp)
      | some r =>
        rw [hp] at h
        simp only [Option.map_some, Option.some.injEq, Prod.mk.injEq] at h
        obtain ⟨h1, h2⟩ := h
        subst h1; subst h2
        have := push_stream hp (runStage c.fn c.st (c.inp.q ++ xs))
        simp [stream, finals, hh, this.1, this.2]
    · rename_i hh
      split at h
      · rename_i x r hq
        injection h with h; injection h with h1 h2; subst h1; subst h2
        simp [stream, finals, hh, hq, runStage, lastState]
      · rename_i hq
        split at h
        · rename_i hc
          injection h with h; injection h with h1 h2; subst h1; subst h2
          have := closeNext_stream cs o (runStage c.fn c.st [])
          simp [stream, finals, hh, hq, hx hc, this.1, this.2, runStage] at this ⊢
          simp [this]
        · exact absurd h (by simp)

theorem atIdx_stream {cap : Nat} : ∀ (i : Nat) (cs cs' : List (Cell σ α)) (o o' : Chan α) (p : Bool) (xs : List α),
    Inv p cs o → (p = true → xs = []) →
    atIdx (move cap) i cs o = some (cs', o') → stream cs' o' xs = stream cs o xs ∧ finals cs' xs = finals cs xs
  | i, [], _, _, _, _, _, _, _, h => by cases i <;> exact absurd h (by simp [atIdx])
  | 0, c :: cs, _, o, _, p, xs, hi, hx, h => by
    simp only [atIdx] at h
    exact move_stream h xs (fun hc => hx (hi.1 ▸ hc))
  | i + 1, c :: cs, cs', o, o', p, xs, hi, hx, h => by
    simp only [atIdx] at h
    cases hp : atIdx (move cap) i cs o with
    | none => rw [hp] at h; exact absurd h (by simp)
    | some r =>
      rw [hp] at h
      simp only [Option.map_some, Option.some.injEq, Prod.mk.injEq] at h
      obtain ⟨h1, h2⟩ := h
      subst h1; subst h2
      have := atIdx_stream i cs r.1 o r.2 c.exited (c.hold.toList ++ runStage c.fn c.st (c.inp.q ++ xs)) hi.2.2
        (fun he => by
          obtain ⟨a, b, d⟩ := hi.2.1 he
          rw [a, b, hx (hi.1 ▸ d)]; rfl) hp
      simp [stream, finals, this.1, this.2]

theorem push_inv {cap : Nat} {x : α} {p : Bool} {cs cs' : List (Cell σ α)} {o o' : Chan α} (h : push cap x cs o = some (cs', o'))
    (hi : Inv p cs o) (hp : p = false) : Inv p cs' o' := by
  cases cs with
  | nil =>
    simp only [push] at h
    split at h
    · injection h with h; injection h with h1 h2; subst h1; subst h2; exact hi
    · exact absurd h (by simp)
  | cons c cs =>
    simp only [push] at h
    split at h
    · injection h with h; injection h with h1 h2; subst h1; subst h2
      refine ⟨hi.1, fun he => ?_, hi.2.2⟩
      have := (hi.2.1 he).2.2
      rw [hi.1, hp] at this; exact absurd this (by simp)
    · exact absurd h (by simp)

theorem push_invDone {cap : Nat} {x : α} {p : Bool} {cs cs' : List (Cell σ α)} {o o' : Chan α} (h : push cap x cs o = some (cs', o'))
    (hi : InvDone p cs o) : InvDone p cs' o' := by
  cases cs with
  | nil =>
    simp only [push] at h
    split at h
    · injection h with h; injection h with h1 h2; subst h1; subst h2; exact hi
    · exact absurd h (by simp)
  | cons c cs =>
    simp only [push] at h
    split at h
    · injection h with h; injection h with h1 h2; subst h1; subst h2
      exact ⟨hi.1, hi.2.1, hi.2.2⟩
    · exact absurd h (by simp)

theorem closeNext_inv {p : Bool} {cs : List (Cell σ α)} {o : Chan α} (hi : Inv p cs o) :
    Inv true (closeNext cs o).1 (closeNext cs o).2 := by
  cases cs with
  | nil => rfl
  | cons c cs => exact ⟨rfl, fun he => ⟨(hi.2.1 he).1, (hi.2.1 he).2.1, rfl⟩, hi.2.2⟩

theorem closeNext_invDone {p : Bool} {cs : List (Cell σ α)} {o : Chan α} (hi : InvDone p cs o) :
    InvDone true (closeNext cs o).1 (closeNext cs o).2 := by
  cases cs with
  | nil => rfl
  | cons c cs => exact ⟨rfl, hi.2.1, hi.2.2⟩

theorem move_inv {cap : Nat} {p : Bool} {c : Cell σ α} {cs cs' : List (Cell σ α)} {o o' : Chan α} (h : move cap c cs o = some (cs', o'))
    (hi : Inv p (c :: cs) o) : Inv p cs' o' := by
  obtain ⟨h1, h2, h3⟩ := hi
  unfold move at h
  split at h
  · exact absurd h (by simp)
  · rename_i hex
    have hex : c.exited = false := by simpa using hex
    split at h
    · rename_i x hh
      cases hp : push cap x cs o with
      | none => rw [hp] at h; exact absurd h (by simp)
      | some r =>
        rw [hp] at h
        simp only [Option.map_some, Option.some.injEq, Prod.mk.injEq] at h
        obtain ⟨e1, e2⟩ := h
        subst e1; subst e2
        exact ⟨h1, fun he => absurd he (by simp [hex]), push_inv hp h3 hex⟩
    · rename_i hh
      split at h
      · rename_i x r hq
        injection h with h; injection h with e1 e2; subst e1; subst e2
        exact ⟨h1, fun he => absurd he (by simp [hex]), h3⟩
      · rename_i hq
        split at h
        · rename_i hc
          injection h with h; injection h with e1 e2; subst e1; subst e2
          exact ⟨h1, fun _ => ⟨hh, hq, hc⟩, closeNext_inv h3⟩
        · exact absurd h (by simp)

theorem move_invDone {cap : Nat} {p : Bool} {c : Cell σ α} {cs cs' : List (Cell σ α)} {o o' : Chan α} (h : move cap c cs o = some (cs', o'))
    (hi : InvDone p (c :: cs) o) : InvDone p cs' o' := by
  obtain ⟨h1, h2, h3⟩ := hi
  unfold move at h
  split at h
  · exact absurd h (by simp)
  · rename_i hex
    have hex : c.exited = false := by simpa using hex
    split at h
    · rename_i x hh
      cases hp : push cap x cs o with
      | none => rw [hp] at h; exact absurd h (by simp)
      | some r =>
        rw [hp] at h
        simp only [Option.map_some, Option.some.injEq, Prod.mk.injEq] at h
        obtain ⟨e1, e2⟩ := h
        subst e1; subst e2
        exact ⟨h1, fun _ => rfl, push_invDone hp h3⟩
    · rename_i hh
      split at h
      · rename_i x r hq
        injection h with h; injection h with e1 e2; subst e1; subst e2
        exact ⟨h1, fun he => absurd he (by simp [hex]), h3⟩
      · rename_i hq
        split at h
        · rename_i hc
          injection h with h; injection h with e1 e2; subst e1; subst e2
          exact ⟨h1, fun _ => hh, closeNext_invDone h3⟩
        · exact absurd h (by simp)

theorem quit_invDone {p : Bool} {c : Cell σ α} {cs cs' : List (Cell σ α)} {o o' : Chan α} (h : quit c cs o = some (cs', o'))
    (hi : InvDone p (c :: cs) o) : InvDone p cs' o' := by
  obtain ⟨h1, h2, h3⟩ := hi
  unfold quit at h
  split at h
  · exact absurd h (by simp)
  · split at h
    · split at h
      · injection h with h; injection h with e1 e2; subst e1; subst e2
        exact ⟨h1, fun _ => rfl, closeNext_invDone h3⟩
      · exact absurd h (by simp)
    · exact absurd h (by simp)

theorem atIdx_inv {cap : Nat} : ∀ (i : Nat) (cs cs' : List (Cell σ α)) (o o' : Chan α) (p : Bool),
    Inv p cs o → atIdx (move cap) i cs o = some (cs', o') → Inv p cs' o'
  | i, [], _, _, _, _, _, h => by cases i <;> exact absurd h (by simp [atIdx])
  | 0, c :: cs, _, o, _, p, hi, h => move_inv h hi
  | i + 1, c :: cs, cs', o, o', p, hi, h => by
    simp only [atIdx] at h
    cases hp : atIdx (move cap) i cs o with
    | none => rw [hp] at h; exact absurd h (by simp)
    | some r =>
      rw [hp] at h
      simp only [Option.map_some, Option.some.injEq, Prod.mk.injEq] at h
      obtain ⟨h1, h2⟩ := h
      subst h1; subst h2
      exact ⟨hi.1, hi.2.1, atIdx_inv i cs r.1 o r.2 c.exited hi.2.2 hp⟩

theorem atIdx_invDone {f : Cell σ α → List (Cell σ α) → Chan α → Option (List (Cell σ α) × Chan α)}
    (hf : ∀ (p : Bool) (c : Cell σ α) (cs cs' : List (Cell σ α)) (o o' : Chan α), f c cs o = some (cs', o') → InvDone p (c :: cs) o → InvDone p cs' o') :
    ∀ (i : Nat) (cs cs' : List (Cell σ α)) (o o' : Chan α) (p : Bool),
    InvDone p cs o → atIdx f i cs o = some (cs', o') → InvDone p cs' o'
  | i, [], _, _, _, _, _, h => by cases i <;> exact absurd h (by simp [atIdx])
  | 0, c :: cs, _, o, _, p, hi, h => hf p c cs _ o _ h hi
  | i + 1, c :: cs, cs', o, o', p, hi, h => by
    simp only [atIdx] at h
    cases hp : atIdx f i cs o with
    | none => rw [hp] at h; exact absurd h (by simp)
    | some r =>
      rw [hp] at h
      simp only [Option.map_some, Option.some.injEq, Prod.mk.injEq] at h
      obtain ⟨h1, h2⟩ := h
      subst h1; subst h2
      exact ⟨hi.1, hi.2.1, atIdx_invDone hf i cs r.1 o r.2 c.exited hi.2.2 hp⟩

theorem inv_imp_invDone : ∀ (p : Bool) (cs : List (Cell σ α)) (o : Chan α), Inv p cs o → InvDone p cs o
  | _, [], _, h => h
  | _, c :: cs, o, h => ⟨h.1, fun he => (h.2.1 he).1, inv_imp_invDone _ cs o h.2.2⟩

/-! Boundedness -/

theorem push_bounded {cap : Nat} {x : α} {cs cs' : List (Cell σ α)} {o o' : Chan α} (h : push cap x cs o = some (cs', o'))
    (hb : Bounded cap cs o) : Bounded cap cs' o' := by
  cases cs with
  | nil =>
    simp only [push] at h
    split at h
    · rename_i hl
      injection h with h; injection h with h1 h2; subst h1; subst h2
      simp [Bounded]; omega
    · exact absurd h (by simp)
  | cons c cs =>
    simp only [push] at h
    split at h
    · rename_i hl
      injection h with h; injection h with h1 h2; subst h1; subst h2
      refine ⟨?_, hb.2⟩
      simp; omega
    · exact absurd h (by simp)

theorem closeNext_bounded {cap : Nat} {cs : List (Cell σ α)} {o : Chan α} (hb : Bounded cap cs o) :
    Bounded cap (closeNext cs o).1 (closeNext cs o).2 := by
  cases cs with
  | nil => exact hb
  | cons c cs => exact hb

/-- A step leaves the first cell a first cell, does not lengthen its queue and keeps the bounds. -/
def Keeps (cap : Nat) (f : Cell σ α → List (Cell σ α) → Chan α → Option (List (Cell σ α) × Chan α)) : Prop :=
  ∀ (c : Cell σ α) (cs cs' : List (Cell σ α)) (o o' : Chan α), f c cs o = some (cs', o') → Bounded cap cs o →
    ∃ c' ds, cs' = c' :: ds ∧ c'.inp.q.length ≤ c.inp.q.length ∧ Bounded cap ds o'

theorem move_bounded (cap : Nat) : Keeps (σ := σ) (α := α) cap (move cap) := by
  intro c cs cs' o o' h hb
  unfold move at h
  split at h
  · exact absurd h (by simp)
  · split at h
    · rename_i x hh
      cases hp : push cap x cs o with
      | none => rw [hp] at h; exact absurd h (by simp)
      | some r =>
        rw [hp] at h
        simp only [Option.map_some, Option.some.injEq, Prod.mk.injEq] at h
        obtain ⟨e1, e2⟩ := h
        subst e1; subst e2
        exact ⟨_, _, rfl, Nat.le_refl _, push_bounded hp hb⟩
    · split at h
      · rename_i x r hq
        injection h with h; injection h with e1 e2; subst e1; subst e2
        exact ⟨_, _, rfl, by simp [hq], hb⟩
      · split at h
        · injection h with h; injection h with e1 e2; subst e1; subst e2
          exact ⟨_, _, rfl, Nat.le_refl _, closeNext_bounded hb⟩
        · exact absurd h (by simp)

theorem quit_bounded (cap : Nat) : Keeps (σ := σ) (α := α) cap quit := by
  intro c cs cs' o o' h hb
  unfold quit at h
  split at h
  · exact absurd h (by simp)
  · split at h
    · split at h
      · injection h with h; injection h with e1 e2; subst e1; subst e2
        exact ⟨_, _, rfl, Nat.le_refl _, closeNext_bounded hb⟩
      · exact absurd h (by simp)
    · exact absurd h (by simp)

theorem atIdx_bounded {cap : Nat} {f : Cell σ α → List (Cell σ α) → Chan α → Option (List (Cell σ α) × Chan α)} (hf : Keeps cap f) :
    ∀ (i : Nat), Keeps cap (fun c cs o => atIdx f i (c :: cs) o)
  | 0 => fun c cs cs' o o' h hb => hf c cs cs' o o' h hb
  | i + 1 => by
    intro c cs cs' o o' h hb
    simp only [atIdx] at h
    cases cs with
    | nil => cases i <;> exact absurd h (by simp [atIdx])
    | cons d ds =>
      cases hp : atIdx f i (d :: ds) o with
      | none => rw [hp] at h; exact absurd h (by simp)
      | some r =>
        rw [hp] at h
        simp only [Option.map_some, Option.some.injEq, Prod.mk.injEq] at h
        obtain ⟨h1, h2⟩ := h
        subst h1; subst h2
        obtain ⟨d', es, e1, e2, e3⟩ := atIdx_bounded hf i d ds r.1 o r.2 hp hb.2
        exact ⟨_, _, rfl, Nat.le_refl _, by rw [e1]; exact ⟨Nat.le_trans e2 hb.1, e3⟩⟩

/-! Progress -/

/-- The number of values in the first channel. -/
def headLen : List (Cell σ α) → Chan α → Nat
  | [], o => o.q.length
  | c :: _, _ => c.inp.q.length

theorem push_some {cap : Nat} (x : α) {cs : List (Cell σ α)} {o : Chan α} (h : headLen cs o < cap) :
    ∃ r, push cap x cs o = some r := by
  cases cs <;> (simp only [headLen] at h; simp [push, h])

/-- If nobody can move and the last channel is empty and open, the blocking goes back to the source. -/
theorem blocked_back {cap : Nat} (hcap : 0 < cap) : ∀ (p : Bool) (cs : List (Cell σ α)) (o : Chan α), InvDone p cs o →
    (∀ i, atIdx (move cap) i cs o = none) → o.q = [] → o.closed = false → p = false ∧ headLen cs o = 0
  | p, [], o, hi, _, hq, hc => by
    have hi : o.closed = p := hi
    exact ⟨by rw [← hi]; exact hc, by simp [headLen, hq]⟩
  | p, c :: cs, o, hi, hn, hq, hc => by
    obtain ⟨h1, h2, h3⟩ := hi
    have := blocked_back hcap c.exited cs o h3 (fun i => by
      have := hn (i + 1)
      simp only [atIdx, Option.map_eq_none_iff] at this
      exact this) hq hc
    have hm : move cap c cs o = none := hn 0
    unfold move at hm
    rw [this.1] at hm
    simp only [Bool.false_eq_true, if_false] at hm
    split at hm
    · rename_i x hh
      obtain ⟨r, hr⟩ := push_some (cap := cap) x (cs := cs) (o := o) (by omega)
      rw [hr] at hm; exact absurd hm (by simp)
    · split at hm
      · exact absurd hm (by simp)
      · rename_i hq'
        split at hm
        · exact absurd hm (by simp)
        · rename_i hcl
          refine ⟨?_, by simp [headLen, hq']⟩
          rw [← h1]; simpa using hcl

/-! Measure -/

/-- Remaining work: two steps per stage for every value, one per goroutine to exit. -/
def work : List (Cell σ α) → Nat
  | [] => 0
  | c :: cs => c.inp.q.length * (2 * cs.length + 3) + c.hold.toList.length * (2 * cs.length + 2) + (if c.exited then 0 else 1) + work cs

theorem push_work {cap : Nat} {x : α} {cs cs' : List (Cell σ α)} {o o' : Chan α} (h : push cap x cs o = some (cs', o')) :
    work cs' + o'.q.length = work cs + o.q.length + (2 * cs.length + 1) ∧ cs'.length = cs.length := by
  cases cs with
  | nil =>
    simp only [push] at h
    split at h
    · injection h with h; injection h with h1 h2; subst h1; subst h2; simp [work]
    · exact absurd h (by simp)
  | cons c cs =>
    simp only [push] at h
    split at h
    · injection h with h; injection h with h1 h2; subst h1; subst h2
      simp only [work, List.length_append, List.length_cons, List.length_nil, Nat.add_mul, Nat.one_mul]
      exact ⟨by omega, by trivial⟩
    · exact absurd h (by simp)

theorem closeNext_work (cs : List (Cell σ α)) (o : Chan α) :
    work (closeNext cs o).1 = work cs ∧ (closeNext cs o).2.q = o.q ∧ (closeNext cs o).1.length = cs.length := by
  cases cs <;> simp [closeNext, work]

theorem move_work {cap : Nat} {c : Cell σ α} {cs cs' : List (Cell σ α)} {o o' : Chan α} (h : move cap c cs o = some (cs', o')) :
    work cs' + o'.q.length + 1 = work (c :: cs) + o.q.length ∧ cs'.length = cs.length + 1 := by
  unfold move at h
  split at h
  · exact absurd h (by simp)
  · rename_i hex
    split at h
    · rename_i x hh
      cases hp : push cap x cs o with
      | none => rw [hp] at h; exact absurd h (by simp)
      | some r =>
        rw [hp] at h
        simp only [Option.map_some, Option.some.injEq, Prod.mk.injEq] at h
        obtain ⟨e1, e2⟩ := h
        subst e1; subst e2
        have := push_work hp
        simp only [work, hh, Option.toList_some, Option.toList_none, List.length_cons, List.length_nil, this.2]
        have := this.1
        exact ⟨by omega, by trivial⟩
    · rename_i hh
      split at h
      · rename_i x r hq
        injection h with h; injection h with e1 e2; subst e1; subst e2
        simp only [work, hh, hq, Option.toList_some, Option.toList_none, List.length_cons, List.length_nil, Nat.add_mul]
        exact ⟨by omega, by trivial⟩
      · rename_i hq
        split at h
        · injection h with h; injection h with e1 e2; subst e1; subst e2
          have := closeNext_work cs o
          simp only [work, this.1, this.2.1, hh, hq, List.length_cons, this.2.2]
          simp [hex]; omega
        · exact absurd h (by simp)

theorem quit_work {c : Cell σ α} {cs cs' : List (Cell σ α)} {o o' : Chan α} (h : quit c cs o = some (cs', o')) :
    work cs' + o'.q.length + 1 ≤ work (c :: cs) + o.q.length ∧ cs'.length = cs.length + 1 := by
  unfold quit at h
  split at h
  · exact absurd h (by simp)
  · rename_i hex
    split at h
    · rename_i x hh
      split at h
      · injection h with h; injection h with e1 e2; subst e1; subst e2
        have := closeNext_work cs o
        simp only [work, this.1, this.2.1, hh, List.length_cons, this.2.2]
        simp [hex]; omega
      · exact absurd h (by simp)
    · exact absurd h (by simp)

theorem atIdx_work {f : Cell σ α → List (Cell σ α) → Chan α → Option (List (Cell σ α) × Chan α)}
    (hf : ∀ (c : Cell σ α) (cs cs' : List (Cell σ α)) (o o' : Chan α), f c cs o = some (cs', o') →
      work cs' + o'.q.length + 1 ≤ work (c :: cs) + o.q.length ∧ cs'.length = cs.length + 1) :
    ∀ (i : Nat) (cs cs' : List (Cell σ α)) (o o' : Chan α), atIdx f i cs o = some (cs', o') →
      work cs' + o'.q.length + 1 ≤ work cs + o.q.length ∧ cs'.length = cs.length
  | i, [], _, _, _, h => by cases i <;> exact absurd h (by simp [atIdx])
  | 0, c :: cs, _, o, _, h => hf c cs _ o _ h
  | i + 1, c :: cs, cs', o, o', h => by
    simp only [atIdx] at h
    cases hp : atIdx f i cs o with
    | none => rw [hp] at h; exact absurd h (by simp)
    | some r =>
      rw [hp] at h
      simp only [Option.map_some, Option.some.injEq, Prod.mk.injEq] at h
      obtain ⟨h1, h2⟩ := h
      subst h1; subst h2
      have := atIdx_work hf i cs r.1 o r.2 hp
      simp only [work, this.2, List.length_cons]
      have := this.1
      exact ⟨by omega, by trivial⟩

/-- Work of the whole system. -/
def workSys (s : Sys σ α γ ε) : Nat := work s.cells + s.out.q.length + (if s.cons.isDone then 0 else 1)

/-- Everything that is known about a reachable state. -/
structure Good (cap : Nat) (agg : γ → α → Except ε γ) (R : Except ε γ) (F : List σ) (s : Sys σ α γ ε) : Prop where
  done : InvDone true s.cells s.out
  bounded : BoundedTail cap s
  running : ∀ acc, s.cons = .running acc → Inv true s.cells s.out ∧ fold agg acc (stream s.cells s.out []) = R ∧ finals s.cells [] = F
  ok : ∀ acc, s.cons = .ok acc → R = .ok acc ∧ s.cells.map Cell.st = F ∧ ∀ c ∈ s.cells, c.exited = true
  err : ∀ e, s.cons = .err e → R = .error e

theorem all_exited : ∀ (p : Bool) (cs : List (Cell σ α)) (o : Chan α), Inv p cs o → o.closed = true → p = true →
    stream cs o [] = o.q ∧ finals cs [] = cs.map Cell.st ∧ ∀ c ∈ cs, c.exited = true := by
  intro p cs
  induction cs generalizing p with
  | nil => intro o hi hc hp; simp [stream, finals]
  | cons c cs ih =>
    intro o hi hc hp
    have hex : c.exited = true := by
      clear ih
      have : ∀ (p : Bool) (cs : List (Cell σ α)), Inv p cs o → p = true := by
        intro p cs
        induction cs generalizing p with
        | nil => intro h; rw [← h]; exact hc
        | cons d ds ih => intro h; rw [← h.1]; exact (h.2.1 (ih _ h.2.2)).2.2
      exact this _ _ hi.2.2
    obtain ⟨a, b, d⟩ := hi.2.1 hex
    have := ih c.exited o hi.2.2 hc hex
    refine ⟨by simp [stream, a, b, runStage, this.1], by simp [finals, a, b, runStage, lastState, this.2.1], ?_⟩
    intro x hx
    rcases List.mem_cons.1 hx with rfl | hx
    · exact hex
    · exact this.2.2 x hx

theorem atIdx_exited_none {cap : Nat} : ∀ (i : Nat) (cs : List (Cell σ α)) (o : Chan α), (∀ c ∈ cs, c.exited = true) →
    atIdx (move cap) i cs o = none ∧ atIdx quit i cs o = none
  | i, [], _, _ => by cases i <;> simp [atIdx]
  | 0, c :: cs, o, h => by simp [atIdx, move, quit, h c List.mem_cons_self]
  | i + 1, c :: cs, o, h => by
    have := atIdx_exited_none (cap := cap) i cs o (fun c hc => h c (List.mem_cons_of_mem _ hc))
    simp [atIdx, this.1, this.2]

theorem boundedTail_atIdx {cap : Nat} {f : Cell σ α → List (Cell σ α) → Chan α → Option (List (Cell σ α) × Chan α)} (hf : Keeps cap f)
    {s : Sys σ α γ ε} {i : Nat} {r : List (Cell σ α) × Chan α} (h : atIdx f i s.cells s.out = some r) (hb : BoundedTail cap s) :
    BoundedTail cap { s with cells := r.1, out := r.2 } := by
  unfold BoundedTail at hb ⊢
  revert h hb
  cases s.cells with
  | nil => intro h; cases i <;> exact absurd h (by simp [atIdx])
  | cons c cs =>
    intro h hb
    obtain ⟨c', ds, e1, _, e3⟩ := atIdx_bounded hf i c cs r.1 s.out r.2 h hb
    simp only [e1]
    exact e3

theorem step_good {cap : Nat} {agg : γ → α → Except ε γ} {R : Except ε γ} {F : List σ} {s s' : Sys σ α γ ε} {a : Actor}
    (hg : Good cap agg R F s) (h : step cap agg s a = some s') : Good cap agg R F s' := by
  cases a with
  | stage i =>
    simp only [step, Option.map_eq_some_iff] at h
    obtain ⟨r, hr, rfl⟩ := h
    refine ⟨?_, boundedTail_atIdx (move_bounded cap) hr hg.bounded, ?_, ?_, ?_⟩
    · exact atIdx_invDone (fun p c cs cs' o o' => move_invDone) i _ _ _ _ _ hg.done hr
    · intro acc hc
      obtain ⟨a1, a2, a3⟩ := hg.running acc hc
      have hs := atIdx_stream i s.cells r.1 s.out r.2 true [] a1 (fun _ => rfl) hr
      exact ⟨atIdx_inv i _ _ _ _ _ a1 hr, by rw [hs.1]; exact a2, by rw [hs.2]; exact a3⟩
    · intro acc hc
      obtain ⟨_, _, a3⟩ := hg.ok acc hc
      rw [(atIdx_exited_none i s.cells s.out a3).1] at hr
      exact absurd hr (by simp)
    · intro e hc; exact hg.err e hc
  | quit i =>
    simp only [step] at h
    split at h
    · rename_i hd
      simp only [Option.map_eq_some_iff] at h
      obtain ⟨r, hr, rfl⟩ := h
      refine ⟨?_, boundedTail_atIdx (quit_bounded cap) hr hg.bounded, ?_, ?_, ?_⟩
      · exact atIdx_invDone (fun p c cs cs' o o' => quit_invDone) i _ _ _ _ _ hg.done hr
      · intro acc hc
        have hc : s.cons = _ := hc
        rw [hc] at hd; exact absurd hd (by simp [Cons.isDone])
      · intro acc hc
        obtain ⟨_, _, a3⟩ := hg.ok acc hc
        rw [(atIdx_exited_none (cap := cap) i s.cells s.out a3).2] at hr
        exact absurd hr (by simp)
      · intro e hc; exact hg.err e hc
    · exact absurd h (by simp)
  | consumer =>
    simp only [step, consume] at h
    split at h
    · rename_i acc hc
      obtain ⟨a1, a2, a3⟩ := hg.running acc hc
      have key : ∀ (cs : List (Cell σ α)) (o : Chan α) (x : α) (r : List α), o.q = x :: r → ∀ xs,
          stream cs o xs = x :: stream cs { o with q := r } xs := by
        intro cs
        induction cs with
        | nil => intro o x r h xs; simp [stream, h]
        | cons c cs ih => intro o x r h xs; simp only [stream]; exact ih o x r h _
      have invq : ∀ (p : Bool) (cs : List (Cell σ α)) (o : Chan α) (r : List α), Inv p cs o → Inv p cs { o with q := r } := by
        intro p cs
        induction cs generalizing p with
        | nil => intro o r h; exact h
        | cons c cs ih => intro o r h; exact ⟨h.1, h.2.1, ih _ _ _ h.2.2⟩
      have bdq : ∀ (cs : List (Cell σ α)) (o : Chan α) (x : α) (r : List α), o.q = x :: r → Bounded cap cs o → Bounded cap cs { o with q := r } := by
        intro cs
        induction cs with
        | nil =>
          intro o x r h hb
          have hb : o.q.length ≤ cap := hb
          rw [h] at hb; simp only [Bounded]; simp at hb ⊢; omega
        | cons c cs ih => intro o x r h hb; exact ⟨hb.1, ih o x r h hb.2⟩
      split at h
      · rename_i x r hq
        have hbt : BoundedTail cap ({ s with out := { s.out with q := r } } : Sys σ α γ ε) := by
          have := hg.bounded
          unfold BoundedTail at this ⊢
          revert this
          cases s.cells with
          | nil => intro this; simp only [hq, List.length_cons] at this ⊢; omega
          | cons c cs => intro this; exact bdq cs s.out x r hq this
        split at h
        · rename_i acc' ha
          injection h with h; subst h
          refine ⟨inv_imp_invDone _ _ _ (invq _ _ _ _ a1), hbt, ?_, fun _ h => (by cases h), fun _ h => (by cases h)⟩
          intro acc'' hc'
          injection hc' with hc'; subst hc'
          refine ⟨invq _ _ _ _ a1, ?_, a3⟩
          rw [key _ _ _ _ hq] at a2
          simp only [fold, ha] at a2
          exact a2
        · rename_i e ha
          injection h with h; subst h
          refine ⟨inv_imp_invDone _ _ _ (invq _ _ _ _ a1), hbt, fun _ h => (by cases h), fun _ h => (by cases h), ?_⟩
          intro e' hc'
          injection hc' with hc'; subst hc'
          rw [key _ _ _ _ hq] at a2
          simp only [fold, ha] at a2
          exact a2.symm
      · rename_i hq
        split at h
        · rename_i hcl
          injection h with h; subst h
          have := all_exited true s.cells s.out a1 hcl rfl
          refine ⟨hg.done, hg.bounded, fun _ h => (by cases h), ?_, fun _ h => (by cases h)⟩
          intro acc' hc'
          injection hc' with hc'; subst hc'
          rw [this.1, hq] at a2
          exact ⟨a2.symm, by rw [← a3, this.2.1], this.2.2⟩
        · exact absurd h (by simp)
    · exact absurd h (by simp)

theorem stream_start (stages : List (Stage σ α)) (o : Chan α) (ho : o.q = []) : ∀ xs,
    stream (stages.map Stage.cell) o xs = runAll stages xs ∧ finals (stages.map Stage.cell) xs = statesAfter stages xs := by
  induction stages with
  | nil => intro xs; simp [stream, finals, runAll, statesAfter, ho]
  | cons s ss ih =>
    intro xs
    have := ih (runStage s.fn s.init xs)
    simp only [List.map_cons, stream, finals, runAll, statesAfter, ← this.1, ← this.2]
    simp [Stage.cell]

theorem start_good (cap : Nat) (agg : γ → α → Except ε γ) (src : Stage σ α) (input : List α) (stages : List (Stage σ α)) (acc : γ) :
    Good cap agg (fold agg acc (runAll (src :: stages) input)) (statesAfter (src :: stages) input)
      (start src input stages acc : Sys σ α γ ε) := by
  have hinv : ∀ (stages : List (Stage σ α)), Inv false (stages.map Stage.cell) (⟨[], false⟩ : Chan α) := by
    intro stages
    induction stages with
    | nil => rfl
    | cons s ss ih => exact ⟨rfl, fun h => absurd h (by simp [Stage.cell]), ih⟩
  have hi : Inv true (start src input stages acc : Sys σ α γ ε).cells (start src input stages acc : Sys σ α γ ε).out :=
    ⟨rfl, fun h => absurd h (by simp [Stage.cell]), hinv stages⟩
  refine ⟨inv_imp_invDone _ _ _ hi, ?_, ?_, fun _ h => (by cases h), fun _ h => (by cases h)⟩
  · show Bounded cap (stages.map Stage.cell) ⟨[], false⟩
    clear hi
    induction stages with
    | nil => exact Nat.zero_le _
    | cons s ss ih => exact ⟨Nat.zero_le _, ih⟩
  · intro acc' hc
    injection hc with hc; subst hc
    refine ⟨hi, ?_, ?_⟩
    · have := (stream_start stages (⟨[], false⟩ : Chan α) rfl (runStage src.fn src.init input)).1
      simp only [start, stream, Stage.cell, Option.toList_none, List.nil_append, List.append_nil, runAll]
      exact congrArg _ this
    · have := (stream_start stages (⟨[], false⟩ : Chan α) rfl (runStage src.fn src.init input)).2
      simp only [start, finals, Stage.cell, Option.toList_none, List.nil_append, List.append_nil, statesAfter]
      exact congrArg _ this

theorem run_good {cap : Nat} {agg : γ → α → Except ε γ} {R : Except ε γ} {F : List σ} {s s' : Sys σ α γ ε} {as : List Actor}
    (h : Run cap agg s as s') (hg : Good cap agg R F s) : Good cap agg R F s' := by
  induction h with
  | nil => exact hg
  | cons hs _ ih => exact ih (step_good hg hs)

theorem step_work {cap : Nat} {agg : γ → α → Except ε γ} {s s' : Sys σ α γ ε} {a : Actor} (h : step cap agg s a = some s') :
    workSys s' + 1 ≤ workSys s := by
  cases a with
  | stage i =>
    simp only [step, Option.map_eq_some_iff] at h
    obtain ⟨r, hr, rfl⟩ := h
    have := atIdx_work (fun c cs cs' o o' h => ⟨Nat.le_of_eq (move_work h).1, (move_work h).2⟩) i _ _ _ _ hr
    simp only [workSys]; omega
  | quit i =>
    simp only [step] at h
    split at h
    · simp only [Option.map_eq_some_iff] at h
      obtain ⟨r, hr, rfl⟩ := h
      have := atIdx_work (fun c cs cs' o o' h => quit_work h) i _ _ _ _ hr
      simp only [workSys]; omega
    · exact absurd h (by simp)
  | consumer =>
    simp only [step, consume] at h
    split at h
    · rename_i acc hc
      split at h
      · rename_i x r hq
        split at h <;>
        · injection h with h; subst h
          simp [workSys, hc, hq, Cons.isDone]
          try omega
      · split at h
        · injection h with h; subst h
          simp [workSys, hc, Cons.isDone]
        · exact absurd h (by simp)
    · exact absurd h (by simp)

theorem run_length {cap : Nat} {agg : γ → α → Except ε γ} {s s' : Sys σ α γ ε} {as : List Actor}
    (h : Run cap agg s as s') : as.length + workSys s' ≤ workSys s := by
  induction h with
  | nil => simp
  | cons hs _ ih => have := step_work hs; simp only [List.length_cons]; omega

theorem push_guarded {cap : Nat} {x : α} {cs cs' : List (Cell σ α)} {o o' : Chan α} (h : push cap x cs o = some (cs', o')) :
    cs'.map Cell.guarded = cs.map Cell.guarded := by
  cases cs <;> (simp only [push] at h; split at h)
  · injection h with h; injection h with h1 h2; subst h1; rfl
  · exact absurd h (by simp)
  · injection h with h; injection h with h1 h2; subst h1; rfl
  · exact absurd h (by simp)

theorem closeNext_guarded (cs : List (Cell σ α)) (o : Chan α) : (closeNext cs o).1.map Cell.guarded = cs.map Cell.guarded := by
  cases cs <;> rfl

theorem move_guarded {cap : Nat} (c : Cell σ α) (cs cs' : List (Cell σ α)) (o o' : Chan α) (h : move cap c cs o = some (cs', o')) :
    cs'.map Cell.guarded = (c :: cs).map Cell.guarded := by
  unfold move at h
  split at h
  · exact absurd h (by simp)
  · split at h
    · rename_i x hh
      cases hp : push cap x cs o with
      | none => rw [hp] at h; exact absurd h (by simp)
      | some r =>
        rw [hp] at h
        simp only [Option.map_some, Option.some.injEq, Prod.mk.injEq] at h
        obtain ⟨e1, e2⟩ := h
        subst e1
        simp [push_guarded hp]
    · split at h
      · injection h with h; injection h with e1 e2; subst e1; rfl
      · split at h
        · injection h with h; injection h with e1 e2; subst e1; simp [closeNext_guarded]
        · exact absurd h (by simp)

theorem quit_guarded (c : Cell σ α) (cs cs' : List (Cell σ α)) (o o' : Chan α) (h : quit c cs o = some (cs', o')) :
    cs'.map Cell.guarded = (c :: cs).map Cell.guarded := by
  unfold quit at h
  split at h
  · exact absurd h (by simp)
  · split at h
    · split at h
      · injection h with h; injection h with e1 e2; subst e1; simp [closeNext_guarded]
      · exact absurd h (by simp)
    · exact absurd h (by simp)

theorem atIdx_guarded {f : Cell σ α → List (Cell σ α) → Chan α → Option (List (Cell σ α) × Chan α)}
    (hf : ∀ (c : Cell σ α) (cs cs' : List (Cell σ α)) (o o' : Chan α), f c cs o = some (cs', o') →
      cs'.map Cell.guarded = (c :: cs).map Cell.guarded) :
    ∀ (i : Nat) (cs cs' : List (Cell σ α)) (o o' : Chan α), atIdx f i cs o = some (cs', o') →
      cs'.map Cell.guarded = cs.map Cell.guarded
  | i, [], _, _, _, h => by cases i <;> exact absurd h (by simp [atIdx])
  | 0, c :: cs, _, o, _, h => hf c cs _ o _ h
  | i + 1, c :: cs, cs', o, o', h => by
    simp only [atIdx] at h
    cases hp : atIdx f i cs o with
    | none => rw [hp] at h; exact absurd h (by simp)
    | some r =>
      rw [hp] at h
      simp only [Option.map_some, Option.some.injEq, Prod.mk.injEq] at h
      obtain ⟨h1, h2⟩ := h
      subst h1
      simp [atIdx_guarded hf i cs r.1 o r.2 hp]

theorem run_guarded {cap : Nat} {agg : γ → α → Except ε γ} {s s' : Sys σ α γ ε} {as : List Actor}
    (h : Run cap agg s as s') : s'.cells.map Cell.guarded = s.cells.map Cell.guarded := by
  induction h with
  | nil => rfl
  | @cons s s' s'' a as hs _ ih =>
    rw [ih]
    cases a with
    | stage i =>
      simp only [step, Option.map_eq_some_iff] at hs
      obtain ⟨r, hr, rfl⟩ := hs
      exact atIdx_guarded move_guarded i _ _ _ _ hr
    | quit i =>
      simp only [step] at hs
      split at hs
      · simp only [Option.map_eq_some_iff] at hs
        obtain ⟨r, hr, rfl⟩ := hs
        exact atIdx_guarded quit_guarded i _ _ _ _ hr
      · exact absurd hs (by simp)
    | consumer =>
      simp only [step, consume] at hs
      split at hs
      · split at hs
        · split at hs <;> (injection hs with hs; subst hs; rfl)
        · split at hs
          · injection hs with hs; subst hs; rfl
          · exact absurd hs (by simp)
      · exact absurd hs (by simp)

/-! ### The property -/

/-- Whatever the schedule, as soon as the consumer has returned, its result is the one of running the
stages one after the other on the whole input, and (on success) the states of the stages — which hold
the collected footnotes — are those of the sequential run. -/
theorem result_is_sequential {cap : Nat} {agg : γ → α → Except ε γ} {src : Stage σ α} {input : List α}
    {stages : List (Stage σ α)} {acc : γ} {as : List Actor} {s : Sys σ α γ ε}
    (h : Run cap agg (start src input stages acc) as s) :
    (∀ g, s.cons = .ok g → fold agg acc (runAll (src :: stages) input) = .ok g ∧
      s.cells.map Cell.st = statesAfter (src :: stages) input) ∧
    (∀ e, s.cons = .err e → fold agg acc (runAll (src :: stages) input) = .error e) := by
  have hg := run_good h (start_good cap agg src input stages acc)
  exact ⟨fun g hc => ⟨(hg.ok g hc).1, (hg.ok g hc).2.1⟩, fun e hc => hg.err e hc⟩

/-- Whatever the schedule, no channel ever holds more than its capacity. -/
theorem channels_bounded {cap : Nat} {agg : γ → α → Except ε γ} {src : Stage σ α} {input : List α}
    {stages : List (Stage σ α)} {acc : γ} {as : List Actor} {s : Sys σ α γ ε}
    (h : Run cap agg (start src input stages acc) as s) :
    (∀ c ∈ s.cells.tail, c.inp.q.length ≤ cap) ∧ s.out.q.length ≤ cap := by
  have hb := (run_good h (start_good cap agg src input stages acc)).bounded
  unfold BoundedTail at hb
  have gen : ∀ cs : List (Cell σ α), Bounded cap cs s.out → (∀ c ∈ cs, c.inp.q.length ≤ cap) ∧ s.out.q.length ≤ cap := by
    intro cs
    induction cs with
    | nil => intro h; exact ⟨by simp, h⟩
    | cons c cs ih =>
      intro h
      refine ⟨?_, (ih h.2).2⟩
      intro d hd
      rcases List.mem_cons.1 hd with rfl | hd
      · exact h.1
      · exact (ih h.2).1 d hd
  revert hb
  cases s.cells with
  | nil => intro hb; exact ⟨by simp, hb⟩
  | cons c cs => intro hb; exact ⟨(gen cs hb).1, (gen cs hb).2⟩

/-- No deadlock: as long as the consumer has not returned, somebody can move. -/
theorem no_deadlock {cap : Nat} (hcap : 0 < cap) {agg : γ → α → Except ε γ} {src : Stage σ α} {input : List α}
    {stages : List (Stage σ α)} {acc : γ} {as : List Actor} {s : Sys σ α γ ε}
    (h : Run cap agg (start src input stages acc) as s) (hr : s.cons.isDone = false) :
    ∃ a s', step cap agg s a = some s' := by
  have hg := run_good h (start_good cap agg src input stages acc)
  by_cases hn : ∀ i, atIdx (move cap) i s.cells s.out = none
  · cases hc : s.cons with
    | running g =>
      refine ⟨.consumer, ?_⟩
      simp only [step, consume, hc]
      cases hq : s.out.q with
      | cons x r =>
        simp only
        cases agg g x with
        | ok g => exact ⟨_, rfl⟩
        | error e => exact ⟨_, rfl⟩
      | nil =>
        cases hcl : s.out.closed with
        | true => exact ⟨_, rfl⟩
        | false => exact absurd (blocked_back hcap true s.cells s.out hg.done hn hq hcl).1 (by simp)
    | ok g => rw [hc] at hr; exact absurd hr (by simp [Cons.isDone])
    | err e => rw [hc] at hr; exact absurd hr (by simp [Cons.isDone])
  · obtain ⟨i, hi⟩ := Classical.not_forall.1 hn
    cases hm : atIdx (move cap) i s.cells s.out with
    | none => exact absurd hm hi
    | some r => exact ⟨.stage i, _, by simp only [step, hm]; rfl⟩

/-- The number of steps of any execution is bounded (by the input and the number of stages), so with
`no_deadlock` every execution that goes on as long as it can makes the consumer return. -/
theorem always_terminates {cap : Nat} {agg : γ → α → Except ε γ} {src : Stage σ α} {input : List α}
    {stages : List (Stage σ α)} {acc : γ} {as : List Actor} {s : Sys σ α γ ε}
    (h : Run cap agg (start src input stages acc) as s) :
    as.length ≤ input.length * (2 * stages.length + 3) + stages.length + 2 := by
  have := run_length h
  have hw : ∀ ss : List (Stage σ α), work (ss.map Stage.cell) = ss.length := by
    intro ss
    induction ss with
    | nil => rfl
    | cons s ss ih => simp [work, Stage.cell, ← ih]; omega
  have hs : workSys (start src input stages acc : Sys σ α γ ε) = input.length * (2 * stages.length + 3) + stages.length + 2 := by
    simp only [workSys, start, work, hw, Stage.cell, List.length_map, Cons.isDone]
    simp; omega
  omega

/-- When the consumer returns because everything was read, all goroutines have ended: the pipeline is
drained. -/
theorem drained {cap : Nat} {agg : γ → α → Except ε γ} {src : Stage σ α} {input : List α}
    {stages : List (Stage σ α)} {acc g : γ} {as : List Actor} {s : Sys σ α γ ε}
    (h : Run cap agg (start src input stages acc) as s) (hc : s.cons = .ok g) : ∀ c ∈ s.cells, c.exited = true :=
  ((run_good h (start_good cap agg src input stages acc)).ok g hc).2.2

/-- When the consumer returned early, with an error, and every send is inside a `select` with `done`,
then the remaining goroutines are never stuck: as long as one is left, one can move. -/
theorem no_leak_when_guarded {cap : Nat} {agg : γ → α → Except ε γ} {src : Stage σ α} {input : List α}
    {stages : List (Stage σ α)} {acc : γ} {as : List Actor} {s : Sys σ α γ ε}
    (h : Run cap agg (start src input stages acc) as s) (hd : s.cons.isDone = true)
    (hst : ∀ st ∈ src :: stages, ∀ x, st.guarded x = true) (hleft : ∃ c ∈ s.cells, c.exited = false) :
    ∃ a s', step cap agg s a = some s' := by
  have hi := (run_good h (start_good cap agg src input stages acc)).done
  have hgd : ∀ c ∈ s.cells, ∀ x, c.guarded x = true := by
    intro c hc x
    have := run_guarded h
    have hm : c.guarded ∈ s.cells.map Cell.guarded := List.mem_map.2 ⟨c, hc, rfl⟩
    rw [this] at hm
    have e : (start src input stages acc : Sys σ α γ ε).cells.map Cell.guarded = (src :: stages).map Stage.guarded := by
      simp [start, Stage.cell]
    rw [e] at hm
    obtain ⟨st, h1, h2⟩ := List.mem_map.1 hm
    rw [← h2]; exact hst st h1 x
  have gen : ∀ (cs : List (Cell σ α)), InvDone true cs s.out → (∀ c ∈ cs, ∀ x, c.guarded x = true) → (∃ c ∈ cs, c.exited = false) →
      ∃ i r, atIdx (move cap) i cs s.out = some r ∨ atIdx quit i cs s.out = some r := by
    intro cs
    induction cs with
    | nil => rintro _ _ ⟨c, hc, _⟩; cases hc
    | cons c cs ih =>
      intro hi hgd hl
      cases hex : c.exited with
      | true =>
        have h3 := hi.2.2
        rw [hex] at h3
        have : ∃ c ∈ cs, c.exited = false := by
          obtain ⟨d, hd, he⟩ := hl
          rcases List.mem_cons.1 hd with rfl | hd
          · rw [hex] at he; cases he
          · exact ⟨d, hd, he⟩
        obtain ⟨i, r, hr⟩ := ih h3 (fun c hc => hgd c (List.mem_cons_of_mem _ hc)) this
        refine ⟨i + 1, (c :: r.1, r.2), ?_⟩
        rcases hr with hr | hr
        · left; simp [atIdx, hr]
        · right; simp [atIdx, hr]
      | false =>
        refine ⟨0, ?_⟩
        cases hh : c.hold with
        | some x => exact ⟨_, Or.inr (by simp only [atIdx, quit, hex, hh, hgd c List.mem_cons_self x]; rfl)⟩
        | none =>
          cases hq : c.inp.q with
          | cons x r => exact ⟨_, Or.inl (by simp only [atIdx, move, hex, hh, hq]; rfl)⟩
          | nil => exact ⟨_, Or.inl (by simp only [atIdx, move, hex, hh, hq, hi.1]; rfl)⟩
  obtain ⟨i, r, hr | hr⟩ := gen s.cells hi hgd hleft
  · exact ⟨.stage i, _, by simp only [step, hr]; rfl⟩
  · exact ⟨.quit i, _, by simp only [step, hd, if_true, hr]; rfl⟩

/-- The three facts together: an execution that has gone on as long as it can has returned the
sequential result. -/
theorem maximal_run {cap : Nat} (hcap : 0 < cap) {agg : γ → α → Except ε γ} {src : Stage σ α} {input : List α}
    {stages : List (Stage σ α)} {acc : γ} {as : List Actor} {s : Sys σ α γ ε}
    (h : Run cap agg (start src input stages acc) as s) (hmax : ∀ a, step cap agg s a = none) :
    (∀ g, fold agg acc (runAll (src :: stages) input) = .ok g → s.cons = .ok g) ∧
    (∀ e, fold agg acc (runAll (src :: stages) input) = .error e → s.cons = .err e) := by
  have hr := result_is_sequential h
  cases hc : s.cons with
  | running g =>
    obtain ⟨a, s', hs⟩ := no_deadlock hcap h (by rw [hc]; rfl)
    rw [hmax a] at hs; exact absurd hs (by simp)
  | ok g =>
    have := (hr.1 g hc).1
    rw [this]
    exact ⟨fun g' e => (by injection e with e; rw [e]), fun e' e => (by cases e)⟩
  | err e =>
    have := hr.2 e hc
    rw [this]
    exact ⟨fun g' h => (by cases h), fun e' h => (by injection h with h; rw [h])⟩

/-- With a consumer that only records what it receives: every value reaches it exactly once, in
document order, transformed by the stages one after the other. -/
theorem delivered_in_order {cap : Nat} (hcap : 0 < cap) {src : Stage σ α} {input : List α}
    {stages : List (Stage σ α)} {as : List Actor} {s : Sys σ α (List α) ε}
    (h : Run cap (fun g x => .ok (g ++ [x])) (start src input stages []) as s)
    (hmax : ∀ a, step cap (fun g x => .ok (g ++ [x])) s a = none) :
    s.cons = .ok (runAll (src :: stages) input) := by
  apply (maximal_run hcap h hmax).1
  have : ∀ (xs g : List α), fold (ε := ε) (fun g x => .ok (g ++ [x])) g xs = .ok (g ++ xs) := by
    intro xs
    induction xs with
    | nil => intro g; simp [fold]
    | cons x xs ih => intro g; simp [fold, ih]
  rw [this]; rfl

/-! ### Non-vacuity and the leak -/

/-- Execute a schedule. -/
def exec (cap : Nat) (agg : γ → α → Except ε γ) : Sys σ α γ ε → List Actor → Option (Sys σ α γ ε)
  | s, [] => some s
  | s, a :: as => match step cap agg s a with
    | none => none
    | some s => exec cap agg s as

theorem exec_run {cap : Nat} {agg : γ → α → Except ε γ} : ∀ (as : List Actor) (s s' : Sys σ α γ ε),
    exec cap agg s as = some s' → Run cap agg s as s'
  | [], s, s', h => by injection h with h; subst h; exact .nil
  | a :: as, s, s', h => by
    simp only [exec] at h
    cases hs : step cap agg s a with
    | none => rw [hs] at h; exact absurd h (by simp)
    | some t => rw [hs] at h; exact .cons hs (exec_run as t s' h)

/-- A source and two stages: one adds a running total, one doubles. -/
def exSrc : Stage Nat Nat := ⟨fun s x => (s, x), fun _ => true, 0⟩
def exStages : List (Stage Nat Nat) := [⟨fun s x => (s + x, s + x), fun _ => true, 0⟩, ⟨fun s x => (s + 1, 2 * x), fun _ => true, 0⟩]

/-- One (of many) complete executions on a one-place buffer: the consumer gets the sequential result. -/
example : ∃ s : Sys Nat Nat (List Nat) Unit,
    Run 1 (fun g x => .ok (g ++ [x])) (start exSrc [1, 2] exStages [])
      [.stage 0, .stage 0, .stage 0, .stage 1, .stage 0, .stage 1, .stage 2, .stage 0, .stage 1, .stage 1, .stage 2, .consumer,
       .stage 2, .stage 2, .consumer, .stage 1, .stage 2, .consumer] s ∧
    s.cons = .ok [2, 6] := by
  refine ⟨_, exec_run _ _ _ rfl, rfl⟩

example : runAll (exSrc :: exStages) [1, 2] = [2, 6] := by decide

/-- The six goroutines with the real capacity; value 0 stands for an error fragment of the parser, sent
outside of the select (document_processing_parse_fragments.go:18,23,45). -/
def leakSrc : Stage Unit Nat := ⟨fun s x => (s, x), fun x => x != 0, ()⟩
def leakStages : List (Stage Unit Nat) := List.replicate 5 ⟨fun s x => (s, x), fun _ => true, ()⟩

def leakSchedule : List Actor :=
  [.stage 0, .stage 0, .stage 1, .stage 1, .stage 2, .stage 2, .stage 3, .stage 3, .stage 4, .stage 4, .stage 5, .stage 5,
   .consumer, .stage 0, .stage 0, .stage 1, .quit 1, .stage 2, .stage 3, .stage 4, .stage 5] ++
  (List.replicate 10 [Actor.stage 0, .stage 0]).flatten ++ [.stage 0]

/-- FINDING: when the consumer fails early, the goroutine of the fragment parser can be stuck forever on
an error fragment: the channel is full, nobody reads it any more and the send does not watch `done`. -/
theorem finding_parser_goroutine_leaks :
    ∃ s : Sys Unit Nat Unit Unit,
      Run 10 (fun _ _ => .error ()) (start leakSrc [1, 2, 3, 4, 5, 6, 7, 8, 9, 10, 11, 12, 0] leakStages ()) leakSchedule s ∧
      s.cons = .err () ∧ (s.cells.head?.map Cell.exited) = some false ∧ ∀ a, step 10 (fun _ _ => .error ()) s a = none := by
  refine ⟨_, exec_run _ _ _ rfl, rfl, rfl, ?_⟩
  intro a
  cases a with
  | consumer => rfl
  | stage i =>
    match i with
    | 0 => rfl
    | 1 => rfl
    | 2 => rfl
    | 3 => rfl
    | 4 => rfl
    | 5 => rfl
    | i + 6 => cases i <;> rfl
  | quit i =>
    match i with
    | 0 => rfl
    | 1 => rfl
    | 2 => rfl
    | 3 => rfl
    | 4 => rfl
    | 5 => rfl
    | i + 6 => cases i <;> rfl

end Verif.C10
