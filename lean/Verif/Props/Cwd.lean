import Verif.Model.Cwd
import Mathlib.Data.List.Induction
/-! C09: the working directory around file inclusions. -/
namespace Verif.C09
open Verif.Cwd

/-! ### Specification -/

/-- What including `path` should give when the working directory is `wd`: its absolute path and
whether its directory and the file itself exist. -/
def outcome (w : World) (wd path : Text) : Text × Bool :=
  (absPath wd path, w.isDir (dirOf (absPath wd path)) && w.isFile (absPath wd path))

/-! ### Sequential restoration -/

/-- Invariant of a conversion running alone that was started in directory `w0`. -/
def Inv (w : World) (w0 : Text) (paths : List Text) (cwd : Text) (p : Proc) : Prop :=
  paths = paths.take p.log.length ++ p.todo ∧ p.log.length ≤ paths.length ∧
  p.log = (paths.take p.log.length).map (outcome w w0) ∧
  match p.pc with
  | .idle => cwd = w0
  | .gotWd wd => cwd = w0 ∧ wd = w0
  | .resolved wd abs => cwd = w0 ∧ wd = w0 ∧ ∃ path r, p.todo = path :: r ∧ abs = absPath w0 path
  | .entered wd abs => wd = w0 ∧ ∃ path r, p.todo = path :: r ∧ abs = absPath w0 path ∧ w.isDir (dirOf abs) = true
  | .finished wd abs ok => wd = w0 ∧ ∃ path r, p.todo = path :: r ∧ (abs, ok) = outcome w w0 path

theorem take_succ_of_split {α : Type} {l : List α} {n : Nat} {x : α} {r : List α} (h : l = l.take n ++ x :: r) (hn : n ≤ l.length) :
    l.take (n + 1) = l.take n ++ [x] ∧ l = l.take (n + 1) ++ r := by
  have hlen : (l.take n).length = n := by rw [List.length_take]; omega
  have h1 : l.take (n + 1) = l.take n ++ [x] := by
    rw [h]
    rw [List.take_append, List.take_append, hlen]
    simp [List.take_take]
  refine ⟨h1, ?_⟩
  rw [h1, List.append_assoc]
  exact h

theorem step_inv (w : World) (w0 : Text) (hw : w.isDir w0 = true) (paths : List Text) (cwd : Text) (p : Proc)
    (h : Inv w w0 paths cwd p) : Inv w w0 paths (Cwd.step w cwd p).1 (Cwd.step w cwd p).2 := by
  obtain ⟨todo, pc, log⟩ := p
  obtain ⟨h1, h2, h3, h4⟩ := h
  dsimp only at h1 h2 h3 h4
  cases pc with
  | idle =>
    cases todo with
    | nil => exact ⟨h1, h2, h3, h4⟩
    | cons x r => exact ⟨h1, h2, h3, h4, h4⟩
  | gotWd wd =>
    cases todo with
    | nil => exact ⟨h1, h2, h3, h4⟩
    | cons x r => exact ⟨h1, h2, h3, h4.1, h4.2, x, r, rfl, by rw [h4.1]⟩
  | resolved wd abs =>
    obtain ⟨hc, hwd, x, r, ht, ha⟩ := h4
    unfold Cwd.step
    dsimp only
    by_cases hd : w.isDir (dirOf abs) = true
    · rw [if_pos hd]
      exact ⟨h1, h2, h3, hwd, x, r, ht, ha, hd⟩
    · rw [if_neg hd]
      refine ⟨h1, h2, h3, hwd, x, r, ht, ?_⟩
      unfold outcome
      rw [← ha]
      simp [hd]
  | entered wd abs =>
    obtain ⟨hwd, x, r, ht, ha, hd⟩ := h4
    refine ⟨h1, h2, h3, hwd, x, r, ht, ?_⟩
    unfold outcome
    rw [← ha, hd]; simp
  | finished wd abs ok =>
    obtain ⟨hwd, x, r, ht, ha⟩ := h4
    subst ht
    have := take_succ_of_split h1 h2
    unfold Cwd.step
    dsimp only
    refine ⟨?_, ?_, ?_, ?_⟩
    · rw [List.length_append]; exact this.2
    · rw [List.length_append]
      have h5 := congrArg List.length h1
      rw [List.length_append, List.length_take, List.length_cons] at h5
      simp only [List.length_cons, List.length_nil]; omega
    · rw [List.length_append]
      show log ++ [(abs, ok)] = (paths.take (log.length + 1)).map (outcome w w0)
      rw [this.1, List.map_append, ← h3, ha]
      rfl
    · show chdir w cwd wd = w0
      unfold chdir
      rw [hwd, if_pos hw]

/-- **C09 (sequential).** A conversion running alone in an existing directory `w0`, interrupted after
any number of steps: whenever it is between two inclusions the working directory is `w0` again,
whether the previous inclusions succeeded or failed, and every file was looked up relative to `w0`. -/
theorem restored (w : World) (w0 : Text) (hw : w.isDir w0 = true) (paths : List Text) (n : Nat) :
    ∃ p, (Sys.run w ⟨w0, [Proc.new paths]⟩ (List.replicate n 0)).procs = [p] ∧
      (p.pc = .idle → (Sys.run w ⟨w0, [Proc.new paths]⟩ (List.replicate n 0)).cwd = w0) ∧
      p.log = (paths.take p.log.length).map (outcome w w0) := by
  have key : ∀ n, ∃ p cwd, Sys.run w ⟨w0, [Proc.new paths]⟩ (List.replicate n 0) = ⟨cwd, [p]⟩ ∧ Inv w w0 paths cwd p := by
    intro n
    induction n with
    | zero => exact ⟨Proc.new paths, w0, rfl, by simp [Inv, Proc.new]⟩
    | succ n ih =>
      obtain ⟨p, cwd, h1, h2⟩ := ih
      refine ⟨(Cwd.step w cwd p).2, (Cwd.step w cwd p).1, ?_, step_inv w w0 hw paths cwd p h2⟩
      unfold Sys.run at *
      rw [List.replicate_succ', List.foldl_append, h1]
      rfl
  obtain ⟨p, cwd, h1, h2⟩ := key n
  refine ⟨p, by rw [h1], fun hp => ?_, h2.2.2.1⟩
  rw [h1]
  have := h2.2.2.2
  rw [hp] at this
  exact this

/-- Five steps per directive are enough: the conversion completes, all directives having been
processed with the expected outcome and the directory restored. -/
theorem completes (w : World) (w0 : Text) (hw : w.isDir w0 = true) (paths : List Text) :
    ∃ n, Sys.run w ⟨w0, [Proc.new paths]⟩ (List.replicate n 0) = ⟨w0, [⟨[], .idle, paths.map (outcome w w0)⟩]⟩ := by
  have one : ∀ (x : Text) (r : List Text) (log : List (Text × Bool)), ∃ n,
      Sys.run w ⟨w0, [⟨x :: r, .idle, log⟩]⟩ (List.replicate n 0) = ⟨w0, [⟨r, .idle, log ++ [outcome w w0 x]⟩]⟩ := by
    intro x r log
    by_cases hd : w.isDir (dirOf (absPath w0 x)) = true
    · refine ⟨5, ?_⟩
      simp [Sys.run, List.replicate, Sys.step, Cwd.step, hd, chdir, hw, outcome]
    · refine ⟨4, ?_⟩
      simp [Sys.run, List.replicate, Sys.step, Cwd.step, hd, chdir, hw, outcome]
  have all : ∀ (ps : List Text) (log : List (Text × Bool)), ∃ n,
      Sys.run w ⟨w0, [⟨ps, .idle, log⟩]⟩ (List.replicate n 0) = ⟨w0, [⟨[], .idle, log ++ ps.map (outcome w w0)⟩]⟩ := by
    intro ps
    induction ps with
    | nil => intro log; exact ⟨0, by simp [Sys.run]⟩
    | cons x r ih =>
      intro log
      obtain ⟨n, hn⟩ := one x r log
      obtain ⟨m, hm⟩ := ih (log ++ [outcome w w0 x])
      refine ⟨n + m, ?_⟩
      unfold Sys.run at *
      rw [← List.replicate_append_replicate, List.foldl_append, hn, hm]
      simp
  obtain ⟨n, hn⟩ := all paths []
  exact ⟨n, by simpa [Proc.new] using hn⟩

/-! ### Concurrent conversions -/

/-- Invariant of one of several conversions whose paths are all absolute. -/
def AbsInv (w : World) (paths : List Text) (p : Proc) : Prop :=
  paths = paths.take p.log.length ++ p.todo ∧ p.log.length ≤ paths.length ∧
  p.log = (paths.take p.log.length).map (outcome w []) ∧
  match p.pc with
  | .idle => True
  | .gotWd _ => True
  | .resolved _ abs => ∃ path r, p.todo = path :: r ∧ abs = absPath [] path
  | .entered _ abs => ∃ path r, p.todo = path :: r ∧ abs = absPath [] path ∧ w.isDir (dirOf abs) = true
  | .finished _ abs ok => ∃ path r, p.todo = path :: r ∧ (abs, ok) = outcome w [] path

theorem step_absInv (w : World) (paths : List Text) (habs : ∀ x ∈ paths, isAbs x = true) (cwd : Text) (p : Proc)
    (h : AbsInv w paths p) : AbsInv w paths (Cwd.step w cwd p).2 := by
  obtain ⟨todo, pc, log⟩ := p
  obtain ⟨h1, h2, h3, h4⟩ := h
  dsimp only at h1 h2 h3 h4
  cases pc with
  | idle =>
    cases todo with
    | nil => exact ⟨h1, h2, h3, trivial⟩
    | cons x r => exact ⟨h1, h2, h3, trivial⟩
  | gotWd wd =>
    cases todo with
    | nil => exact ⟨h1, h2, h3, trivial⟩
    | cons x r =>
      refine ⟨h1, h2, h3, x, r, rfl, ?_⟩
      have : isAbs x = true := habs x (by rw [h1]; simp)
      unfold absPath
      rw [if_pos this, if_pos this]
  | resolved wd abs =>
    obtain ⟨x, r, ht, ha⟩ := h4
    unfold Cwd.step
    dsimp only
    by_cases hd : w.isDir (dirOf abs) = true
    · rw [if_pos hd]
      exact ⟨h1, h2, h3, x, r, ht, ha, hd⟩
    · rw [if_neg hd]
      refine ⟨h1, h2, h3, x, r, ht, ?_⟩
      unfold outcome
      rw [← ha]
      simp [hd]
  | entered wd abs =>
    obtain ⟨x, r, ht, ha, hd⟩ := h4
    refine ⟨h1, h2, h3, x, r, ht, ?_⟩
    unfold outcome
    rw [← ha, hd]; simp
  | finished wd abs ok =>
    obtain ⟨x, r, ht, ha⟩ := h4
    subst ht
    have := take_succ_of_split h1 h2
    unfold Cwd.step
    dsimp only
    refine ⟨?_, ?_, ?_, trivial⟩
    · rw [List.length_append]; exact this.2
    · rw [List.length_append]
      have h5 := congrArg List.length h1
      rw [List.length_append, List.length_take, List.length_cons] at h5
      simp only [List.length_cons, List.length_nil]; omega
    · rw [List.length_append]
      show log ++ [(abs, ok)] = (paths.take (log.length + 1)).map (outcome w [])
      rw [this.1, List.map_append, ← h3, ha]
      rfl

/-- **C09 (concurrent, absolute file names).** For any number of conversions, started in any
directory and run under any schedule: as long as the paths to include are absolute (the document was
opened under an absolute name), every conversion opens exactly the files it would open alone. -/
theorem absolute_paths_any_schedule (w : World) (w0 : Text) (jobs : List (List Text))
    (habs : ∀ ps ∈ jobs, ∀ x ∈ ps, isAbs x = true) (schedule : List Nat) :
    ∀ (i : Nat) (ps : List Text), jobs[i]? = some ps →
      ∃ p : Proc, (Sys.run w ⟨w0, jobs.map Proc.new⟩ schedule).procs[i]? = some p ∧
        p.log = (ps.take p.log.length).map (fun x => (x, w.isDir (dirOf x) && w.isFile x)) := by
  have key : ∀ schedule : List Nat, ∀ (i : Nat) (ps : List Text), jobs[i]? = some ps →
      ∃ p : Proc, (Sys.run w ⟨w0, jobs.map Proc.new⟩ schedule).procs[i]? = some p ∧ AbsInv w ps p := by
    intro sch
    induction sch using List.reverseRecOn with
    | nil =>
      intro i ps h
      refine ⟨Proc.new ps, ?_, by simp [AbsInv, Proc.new]⟩
      show (jobs.map Proc.new)[i]? = _
      rw [List.getElem?_map, h]; rfl
    | append_singleton sch j ih =>
      intro i ps h
      obtain ⟨p, hp, hi⟩ := ih i ps h
      unfold Sys.run at *
      rw [List.foldl_append]
      generalize List.foldl (Sys.step w) ⟨w0, jobs.map Proc.new⟩ sch = s at *
      show ∃ p, (Sys.step w s j).procs[i]? = some p ∧ _
      unfold Sys.step
      cases hj : s.procs[j]? with
      | none => exact ⟨p, hp, hi⟩
      | some q =>
        dsimp only
        by_cases hij : j = i
        · subst hij
          rw [hp] at hj
          injection hj with hj
          subst hj
          refine ⟨(Cwd.step w s.cwd p).2, ?_, step_absInv w ps (habs ps (List.mem_of_getElem? h)) s.cwd p hi⟩
          have : j < s.procs.length := by
            rw [List.getElem?_eq_some_iff] at hp; exact hp.1
          rw [List.getElem?_set_self this]
        · refine ⟨p, ?_, hi⟩
          rw [List.getElem?_set_ne hij]
          exact hp
  intro i ps h
  obtain ⟨p, hp, hi⟩ := key schedule i ps h
  refine ⟨p, hp, ?_⟩
  have h3 := hi.2.2.1
  rw [h3]
  simp only [List.length_map]
  rw [List.length_take, Nat.min_eq_left hi.2.1]
  apply List.map_congr_left
  intro x hx
  have : isAbs x = true := habs ps (List.mem_of_getElem? h) x ((List.take_sublist _ _).mem hx)
  unfold outcome absPath
  rw [if_pos this]

/-! #### Concrete cases and findings -/

/-- Directories `/w`, `/w/a`, `/w/b`; files `/w/a/x`, `/w/b/y`. -/
def demo : World where
  isDir d := d = "/w".toList || d = "/w/a".toList || d = "/w/b".toList
  isFile f := f = "/w/a/x".toList || f = "/w/b/y".toList

example : demo.isDir "/w".toList = true := by decide

/-- Finding: with relative names, two concurrent conversions do disturb each other: conversion 1 looks
for `b/y` inside `/w/a` (where conversion 0 has moved the process) and fails, although the file exists. -/
theorem finding_relative_lookup_is_racy :
    (Sys.run demo ⟨"/w".toList, [Proc.new ["a/x".toList], Proc.new ["b/y".toList]]⟩ [0, 0, 0, 1, 1, 1, 1]).procs[1]?.map Proc.log
      = some [("/w/a/b/y".toList, false)] ∧
    outcome demo "/w".toList "b/y".toList = ("/w/b/y".toList, true) := by decide

/-- Finding: after both conversions have completed, the process may be left in another directory, even
with absolute names: conversion 1 saved the directory of conversion 0 as the one to restore. -/
theorem finding_directory_not_restored_when_concurrent :
    let s := Sys.run demo ⟨"/w".toList, [Proc.new ["/w/a/x".toList], Proc.new ["/w/b/y".toList]]⟩ [0, 0, 0, 1, 0, 0, 1, 1, 1, 1]
    s.procs.map (fun p => (p.todo, p.pc)) = [([], .idle), ([], .idle)] ∧ s.cwd = "/w/a".toList := by decide

end Verif.C09
