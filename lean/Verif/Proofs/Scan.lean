import Verif.Model.Scan
import Verif.Model.Include
/-! Helper lemmas about lines, joining and the scanner. -/
namespace Verif

theorem joinLF_append_singleton (ls : List Text) (t : Text) :
    joinLF (ls ++ [t]) = if ls = [] then t else joinLF ls ++ '\n' :: t := by
  induction ls with
  | nil => rfl
  | cons l ls ih =>
    cases ls with
    | nil => simp [joinLF]
    | cons l' ls => simp [joinLF] at ih ⊢; rw [ih]

theorem splitNL_ne_nil (t : Text) : splitNL t ≠ [] := by
  induction t with
  | nil => simp [splitNL]
  | cons c cs ih =>
    simp only [splitNL]
    split
    · simp
    · split <;> simp

theorem splitNL_line (l : Text) (h : '\n' ∉ l) (r : Text) :
    splitNL (l ++ '\n' :: r) = l :: splitNL r := by
  induction l with
  | nil => simp [splitNL]
  | cons c cs ih =>
    have hc : c ≠ '\n' := fun e => h (by simp [e])
    have := ih (fun hm => h (List.mem_cons_of_mem _ hm))
    simp [splitNL, hc, this]

theorem splitNL_noLF (l : Text) (h : '\n' ∉ l) : splitNL l = [l] := by
  induction l with
  | nil => simp [splitNL]
  | cons c cs ih =>
    have hc : c ≠ '\n' := fun e => h (by simp [e])
    have := ih (fun hm => h (List.mem_cons_of_mem _ hm))
    simp [splitNL, hc, this]

theorem dropLastEmpty_cons (l : Text) (ls : List Text) (h : ls ≠ [] ∨ l ≠ []) :
    dropLastEmpty (l :: ls) = l :: dropLastEmpty ls := by
  cases ls with
  | nil =>
    cases l with
    | nil => simp at h
    | cons c cs => simp [dropLastEmpty]
  | cons l' ls => cases l <;> simp [dropLastEmpty]

theorem physLines_cons (l : Text) (h : '\n' ∉ l) (r : Text) :
    physLines (l ++ '\n' :: r) = l :: physLines r := by
  unfold physLines
  rw [splitNL_line l h, dropLastEmpty_cons _ _ (Or.inl (splitNL_ne_nil r))]

theorem physLines_nil : physLines [] = [] := rfl

theorem physLines_last (l : Text) (h : '\n' ∉ l) (h0 : l ≠ []) : physLines l = [l] := by
  unfold physLines
  rw [splitNL_noLF l h]
  cases l with
  | nil => exact absurd rfl h0
  | cons c cs => simp [dropLastEmpty]

theorem unlines_cons (l : Text) (ls : List Text) : unlines (l :: ls) = l ++ '\n' :: unlines ls := by
  simp [unlines]

theorem physLines_unlines (ls : List Text) (h : ∀ l ∈ ls, '\n' ∉ l) : physLines (unlines ls) = ls := by
  induction ls with
  | nil => rfl
  | cons l ls ih =>
    rw [unlines_cons, physLines_cons l (h l (by simp)), ih (fun x hx => h x (by simp [hx]))]

theorem physLines_joinLF (ls : List Text) (h : ∀ l ∈ ls, '\n' ∉ l) (hl : ls.getLast? ≠ some []) :
    physLines (joinLF ls) = ls := by
  induction ls with
  | nil => rfl
  | cons l ls ih =>
    cases ls with
    | nil =>
      simp only [joinLF]
      exact physLines_last l (h l (by simp)) (by intro e; apply hl; simp [e])
    | cons l' ls =>
      simp only [joinLF]
      rw [physLines_cons l (h l (by simp))]
      rw [ih (fun x hx => h x (by simp [hx]))]
      simpa using hl

theorem dropCR_of_not_suffix (l : Text) (h : l.getLast? ≠ some '\r') : dropCR l = l := by
  induction l with
  | nil => rfl
  | cons c cs ih =>
    cases cs with
    | nil => simp [dropCR]; intro e; simp [e] at h
    | cons c' cs =>
      simp only [dropCR]
      rw [ih (by simpa using h)]

theorem dropCR_append_cr (l : Text) : dropCR (l ++ ['\r']) = l := by
  induction l with
  | nil => simp [dropCR]
  | cons c cs ih =>
    cases cs with
    | nil => simp [dropCR]
    | cons c' cs => simpa [dropCR] using ih

/-- Every source text is its physical lines, each LF-terminated, or (when the last line has no
terminator) joined by LFs. -/
theorem physLines_spec (t : Text) :
    (∀ l ∈ physLines t, '\n' ∉ l) ∧ (t = unlines (physLines t) ∨
      (t = joinLF (physLines t) ∧ (physLines t).getLast? ≠ some [])) := by
  induction t using (measure (fun t : Text => t.length)).wf.induction with
  | _ t ih =>
    by_cases hlf : '\n' ∈ t
    · obtain ⟨l, r, rfl, hl⟩ : ∃ l r, t = l ++ '\n' :: r ∧ '\n' ∉ l := by
        have := List.append_of_mem hlf
        clear ih
        induction t with
        | nil => simp at hlf
        | cons c cs ihc =>
          by_cases hc : c = '\n'
          · exact ⟨[], cs, by simp [hc], by simp⟩
          · have hcs : '\n' ∈ cs := by
              rcases List.mem_cons.1 hlf with h | h
              · exact absurd h.symm hc
              · exact h
            obtain ⟨l, r, h1, h2⟩ := ihc hcs (List.append_of_mem hcs)
            exact ⟨c :: l, r, by simp [h1], by
              intro hm
              rcases List.mem_cons.1 hm with h | h
              · exact hc h.symm
              · exact h2 h⟩
      have := ih r (by simp [measure, invImage, InvImage, WellFoundedRelation.rel]; omega)
      rw [physLines_cons l hl]
      refine ⟨?_, ?_⟩
      · intro x hx
        rcases List.mem_cons.1 hx with h | h
        · exact h ▸ hl
        · exact this.1 x h
      · rcases this.2 with h | ⟨h, h'⟩
        · left; rw [unlines_cons, ← h]
        · by_cases hr : physLines r = []
          · left
            rw [hr] at h ⊢
            simp [joinLF] at h
            simp [h, unlines]
          · right
            obtain ⟨x, xs, hx⟩ := List.exists_cons_of_ne_nil hr
            rw [hx] at h h' ⊢
            refine ⟨by simp only [joinLF]; rw [← h], by simpa using h'⟩
    · by_cases h0 : t = []
      · subst h0; simp [physLines_nil, unlines]
      · rw [physLines_last t hlf h0]
        refine ⟨by simpa using hlf, Or.inr ⟨rfl, by simpa using h0⟩⟩

end Verif
