import Verif.Spec.Renderable
import Verif.Proofs.ContentSays
/-!
Total correctness of the computations of the renderer, up to the errors that are allowed, and templates that never fail (C53, C54, C55).
-/
namespace Verif.Rend
open Verif.Tmpl (Tm Templates html5 xhtml5)
open Verif (Text)

/-- The computation fails only with the errors in `E`, and otherwise its result has the property and the context keeps the invariant. -/
def Runs (E : Err → Prop) (I : Ctx → Prop) {α : Type} (P : α → Prop) (m : M α) : Prop :=
  ∀ c, I c → (∀ e, m c = .error e → E e) ∧ ∀ a c', m c = .ok (a, c') → P a ∧ I c'

/-- No property of the result. -/
abbrev Run (E : Err → Prop) (I : Ctx → Prop) {α : Type} (m : M α) : Prop := Runs E I (fun _ => True) m

section
variable {E : Err → Prop} {I : Ctx → Prop} {α β : Type} {P : α → Prop} {Q : β → Prop}

theorem Runs.pure {a : α} (h : P a) : Runs E I P (Pure.pure a : M α) := by
  intro c hc
  refine ⟨fun e h => ?_, fun a' c' h' => ?_⟩
  · cases h
  · cases h'; exact ⟨h, hc⟩

theorem Run.pure {a : α} : Run E I (Pure.pure a : M α) := Runs.pure trivial

theorem Runs.bind {m : M α} {f : α → M β} (hm : Runs E I P m) (hf : ∀ a, P a → Runs E I Q (f a)) : Runs E I Q (m >>= f) := by
  intro c hc
  have key : (m >>= f) c = M.bind m f c := rfl
  rw [key]
  unfold M.bind
  cases h : m c with
  | error x => exact ⟨fun e he => by cases he; exact (hm c hc).1 x h, fun _ _ he => nomatch he⟩
  | ok r =>
    obtain ⟨a, c1⟩ := r
    obtain ⟨ha, h1⟩ := (hm c hc).2 a c1 h
    exact hf a ha c1 h1

theorem Runs.mono {P' : α → Prop} {m : M α} (h : Runs E I P m) (hp : ∀ a, P a → P' a) : Runs E I P' m :=
  fun c hc => ⟨(h c hc).1, fun a c' e => ⟨hp a ((h c hc).2 a c' e).1, ((h c hc).2 a c' e).2⟩⟩

theorem Runs.run {m : M α} (h : Runs E I P m) : Run E I m := h.mono fun _ _ => trivial

theorem Runs.error {e : Err} (h : E e) : Runs E I P (M.error e : M α) :=
  fun _ _ => ⟨fun x hx => by cases hx; exact h, fun _ _ hx => nomatch hx⟩

theorem Runs.get : Runs E I I M.get := fun c hc => ⟨fun _ h => (nomatch h), fun a c' h => by cases h; exact ⟨hc, hc⟩⟩

theorem Run.modify {f : Ctx → Ctx} (h : ∀ c, I c → I (f c)) : Run E I (M.modify f) :=
  fun c hc => ⟨fun _ h => (nomatch h), fun a c' e => by cases e; exact ⟨trivial, h c hc⟩⟩

theorem Runs.lift {x : Except Err α} (he : ∀ e, x = .error e → E e) (h : ∀ a, x = .ok a → P a) : Runs E I P (M.lift x) := by
  intro c hc
  unfold M.lift
  cases x with
  | error y => exact ⟨fun e h => by cases h; exact he y rfl, fun _ _ h => nomatch h⟩
  | ok b => exact ⟨fun _ h => (nomatch h), fun a c' e => by cases e; exact ⟨h b rfl, hc⟩⟩

end

/-! ### Templates -/

/-- The types of the values. -/
inductive Ty where
  | str | num | flag | strs
deriving DecidableEq

def tyOf : Tmpl.Val → Ty
  | .str _ => .str
  | .num _ => .num
  | .flag _ => .flag
  | .strs _ => .strs

abbrev Sig := List (String × Ty)

/-- The types of the fields. -/
def sigOf (env : Tmpl.Env) : Sig := env.map fun p => (p.1, tyOf p.2)

def condTotal (s : Sig) : Tmpl.Cond → Bool
  | .is f => (AMap.get s f).isSome
  | .isNot f => (AMap.get s f).isSome
  | .nonEmpty f => AMap.get s f == some .str
  | .equals f _ => AMap.get s f == some .num
  | .any fs => fs.all fun f => (AMap.get s f).isSome

/-- Whether a template does not fail, given the types of the fields. -/
def total (s : Sig) : Tm → Bool
  | .done => true
  | .text _ k => total s k
  | .out _ f k => (match AMap.get s f with | some .strs => false | some _ => true | none => false) && total s k
  | .cond c a b k => condTotal s c && total s a && total s b && total s k
  | .loop f body k => AMap.get s f == some .strs && total ((Tmpl.elemField, .str) :: s) body && total s k

theorem get_sig (env : Tmpl.Env) (f : String) : AMap.get (sigOf env) f = (AMap.get env f).map tyOf := by
  induction env with
  | nil => rfl
  | cons p env ih =>
    show AMap.get ((p.1, tyOf p.2) :: sigOf env) f = _
    rw [AMap.get_cons, AMap.get_cons]
    split
    · rfl
    · exact ih

theorem get_of_sig {env : Tmpl.Env} {f : String} (h : (AMap.get (sigOf env) f).isSome = true) : ∃ v, AMap.get env f = some v := by
  rw [get_sig] at h
  cases hv : AMap.get env f with
  | none => rw [hv] at h; cases h
  | some v => exact ⟨v, rfl⟩

theorem cond_total {env : Tmpl.Env} {c : Tmpl.Cond} (h : condTotal (sigOf env) c = true) : ∃ r, c.eval env = some r := by
  cases c with
  | is f => obtain ⟨v, hv⟩ := get_of_sig h; exact ⟨v.truth, by show (AMap.get env f).map _ = _; rw [hv]; rfl⟩
  | isNot f => obtain ⟨v, hv⟩ := get_of_sig h; exact ⟨!v.truth, by show (AMap.get env f).map _ = _; rw [hv]; rfl⟩
  | nonEmpty f =>
    have h : AMap.get (sigOf env) f = some .str := by simpa [condTotal] using h
    rw [get_sig] at h
    obtain ⟨v, hv, e⟩ := Option.map_eq_some_iff.mp h
    cases v with
    | str t => exact ⟨!t.isEmpty, by unfold Tmpl.Cond.eval; dsimp only; rw [hv]⟩
    | _ => cases e
  | equals f n =>
    have h : AMap.get (sigOf env) f = some .num := by simpa [condTotal] using h
    rw [get_sig] at h
    obtain ⟨v, hv, e⟩ := Option.map_eq_some_iff.mp h
    cases v with
    | num t => exact ⟨t == (n : Int), by unfold Tmpl.Cond.eval; dsimp only; rw [hv]⟩
    | _ => cases e
  | any fs =>
    have h : ∀ f ∈ fs, (AMap.get (sigOf env) f).isSome = true := by
      unfold condTotal at h; exact List.all_eq_true.mp h
    induction fs with
    | nil => exact ⟨false, rfl⟩
    | cons f fs ih =>
      obtain ⟨r, hr⟩ := ih (by unfold condTotal; exact List.all_eq_true.mpr fun x hx => h x (List.mem_cons_of_mem _ hx))
        (fun x hx => h x (List.mem_cons_of_mem _ hx))
      obtain ⟨v, hv⟩ := get_of_sig (h f (List.mem_cons_self ..))
      have hr : List.foldr (fun f r => (AMap.get env f).bind (fun v => r.map (fun b => v.truth || b))) (some false) fs = some r := hr
      refine ⟨v.truth || r, ?_⟩
      show (AMap.get env f).bind (fun v => (List.foldr (fun f r => (AMap.get env f).bind (fun v => r.map (fun b => v.truth || b))) (some false) fs).map
        (fun b => v.truth || b)) = _
      rw [hv, hr]
      rfl

theorem each_total {f : Text → Option Text} (h : ∀ x, ∃ t, f x = some t) : ∀ l, ∃ t, Tmpl.eachOf f l = some t
  | [] => ⟨[], rfl⟩
  | x :: l => by
    obtain ⟨t, ht⟩ := h x
    obtain ⟨u, hu⟩ := each_total h l
    refine ⟨t ++ u, ?_⟩
    show (f x).bind (fun t => (Tmpl.eachOf f l).map (t ++ ·)) = _
    rw [ht, hu]; rfl

theorem total_sound {lower : Text → Text} : ∀ {tm : Tm} {env : Tmpl.Env}, total (sigOf env) tm = true → ∃ t, tm.render lower env = some t
  | .done, _, _ => ⟨[], rfl⟩
  | .text s k, env, h => by
    obtain ⟨t, ht⟩ := total_sound (tm := k) (lower := lower) h
    exact ⟨s.toList ++ t, by unfold Tmpl.Tm.render; rw [ht]; rfl⟩
  | .out fn f k, env, h => by
    unfold total at h
    rw [Bool.and_eq_true] at h
    obtain ⟨t, ht⟩ := total_sound (tm := k) (lower := lower) h.2
    have h1 := h.1
    rw [get_sig] at h1
    unfold Tmpl.Tm.render
    cases hv : AMap.get env f with
    | none => rw [hv] at h1; cases h1
    | some v =>
      rw [hv] at h1
      rw [ht]
      cases v with
      | strs l => cases h1
      | _ => exact ⟨_, rfl⟩
  | .cond c a b k, env, h => by
    unfold total at h
    rw [Bool.and_eq_true, Bool.and_eq_true, Bool.and_eq_true] at h
    obtain ⟨r, hr⟩ := cond_total h.1.1.1
    obtain ⟨x, hx⟩ := total_sound (tm := a) (lower := lower) h.1.1.2
    obtain ⟨y, hy⟩ := total_sound (tm := b) (lower := lower) h.1.2
    obtain ⟨t, ht⟩ := total_sound (tm := k) (lower := lower) h.2
    unfold Tmpl.Tm.render
    rw [hr, ht]
    cases r with
    | true => exact ⟨x ++ t, by simp [hx]⟩
    | false => exact ⟨y ++ t, by simp [hy]⟩
  | .loop f body k, env, h => by
    unfold total at h
    rw [Bool.and_eq_true, Bool.and_eq_true] at h
    obtain ⟨t, ht⟩ := total_sound (tm := k) (lower := lower) h.2
    have h1 : AMap.get (sigOf env) f = some .strs := by simpa using h.1.1
    rw [get_sig] at h1
    obtain ⟨v, hv, e⟩ := Option.map_eq_some_iff.mp h1
    have hb : ∀ x, ∃ t, body.render lower ((Tmpl.elemField, .str x) :: env) = some t := fun x => total_sound (tm := body) h.1.2
    unfold Tmpl.Tm.render
    cases v with
    | strs l =>
      obtain ⟨u, hu⟩ := each_total hb l
      rw [hv]
      exact ⟨u ++ t, by dsimp only; rw [hu, ht]; rfl⟩
    | _ => cases e

/-- Whether the templates of both languages do not fail. -/
def totals (s : Sig) (tm : Templates → Tm) : Bool := total s (tm html5) && total s (tm xhtml5)

section
variable {E : Err → Prop} {I : Ctx → Prop} {L : Lib} {tm : Templates → Tm} {env : Tmpl.Env}

theorem exec_runs (hL : E .fail ∨ Standard L) (h : totals (sigOf env) tm = true) : Run E I (exec L tm env) := by
  unfold exec
  cases ht : (tm L.tmpl).render L.lower env with
  | some t => exact Run.pure
  | none =>
    refine Runs.error (hL.resolve_right ?_)
    intro hs
    unfold totals at h
    rw [Bool.and_eq_true] at h
    obtain ⟨t, hx⟩ : ∃ t, (tm L.tmpl).render L.lower env = some t := by
      rcases hs with e | e
      · rw [e]; exact total_sound h.1
      · rw [e]; exact total_sound h.2
    rw [hx] at ht
    cases ht

end

/-- Checks that the data of a template has all the fields. -/
macro "filled" : tactic => `(tactic| (simp only [sigOf, blockEnv, quoteEnv, List.map, tyOf]; decide +kernel))

end Verif.Rend
