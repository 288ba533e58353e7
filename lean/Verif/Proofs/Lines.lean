import Verif.Props.Accepted

/-!
The lines of a text, with their ends, and the first one as the grammar sees it.
-/
namespace Verif
namespace Grammar
open Peg C48

/-- The lines of a text, each with its end (`\n`, `\r\n`, `\r`, or nothing for the last one). -/
def splits : Text → List (Text × Text)
  | [] => []
  | [c] => if isEol c then [([], [c])] else [([c], [])]
  | c :: d :: t =>
    if c = '\r' ∧ d = '\n' then ([], [c, d]) :: splits t
    else if isEol c then ([], [c]) :: splits (d :: t)
    else match splits (d :: t) with
      | [] => [([c], [])]
      | (l, e) :: r => (c :: l, e) :: r

/-- The text of lines. -/
def joins (ls : List (Text × Text)) : Text := (ls.map (fun l => l.1 ++ l.2)).flatten

/-- What follows the first line. -/
def afterLine (t : Text) : Text := (eol (t.dropWhile (fun c => !isEol c))).getD []

/-- The text after the line and its end. -/
theorem eol_after (t : Text) : eol (t.dropWhile (fun c => !isEol c)) = some (afterLine t) := by
  obtain ⟨v, hv⟩ := eol_some t
  unfold afterLine
  rw [hv]; rfl

theorem firstLine_nil : firstLine [] = [] := rfl

theorem firstLine_cons {c : Char} (t : Text) (h : isEol c = false) : firstLine (c :: t) = c :: firstLine t := by
  unfold firstLine; rw [List.takeWhile_cons_of_pos (by simp [h])]

theorem firstLine_eol {c : Char} (t : Text) (h : isEol c = true) : firstLine (c :: t) = [] := by
  unfold firstLine; rw [List.takeWhile_cons_of_neg (by simp [h])]

theorem afterLine_cons {c : Char} (t : Text) (h : isEol c = false) : afterLine (c :: t) = afterLine t := by
  unfold afterLine; rw [List.dropWhile_cons_of_pos (by simp [h])]

theorem eol_cons_eol {c : Char} (t : Text) (h : isEol c = true) : ∃ e, c :: t = e ++ afterLine (c :: t) ∧ e ≠ [] ∧ (∀ x ∈ e, isEol x = true) ∧
    splits (c :: t) = ([], e) :: splits (afterLine (c :: t)) := by
  have hd : (c :: t).dropWhile (fun c => !isEol c) = c :: t := List.dropWhile_cons_of_neg (by simp [h])
  unfold afterLine
  rw [hd]
  have hc := h
  simp only [isEol, Bool.or_eq_true, beq_iff_eq] at hc
  rcases hc with rfl | rfl
  · refine ⟨['\n'], rfl, by simp, by simp [isEol], ?_⟩
    cases t with
    | nil => rfl
    | cons d t => show splits ('\n' :: d :: t) = _; rw [splits, if_neg (by simp)]; rfl
  · cases t with
    | nil => exact ⟨['\r'], rfl, by simp, by simp [isEol], rfl⟩
    | cons d t =>
      by_cases hdn : d = '\n'
      · subst hdn
        exact ⟨['\r', '\n'], rfl, by simp, by simp [isEol], by rw [splits, if_pos ⟨rfl, rfl⟩]; rfl⟩
      · have e : eol ('\r' :: d :: t) = some (d :: t) := by
          show newline ('\r' :: d :: t) = _
          rw [newline_lit]; simp [matchLit, Ne.symm hdn]
        rw [e]
        refine ⟨['\r'], rfl, by simp, by simp [isEol], ?_⟩
        rw [splits, if_neg (by simp [hdn])]
        rfl

/-- The first line, its end, and the other lines. -/
theorem splits_cons : ∀ {t : Text}, t ≠ [] → ∃ e, t = firstLine t ++ (e ++ afterLine t) ∧ (∀ x ∈ e, isEol x = true) ∧
    (e = [] → afterLine t = []) ∧ splits t = (firstLine t, e) :: splits (afterLine t) := by
  intro t
  induction t with
  | nil => intro h; exact absurd rfl h
  | cons c t ih =>
    intro _
    cases hc : isEol c with
    | true =>
      obtain ⟨e, h1, h2, h3, h4⟩ := eol_cons_eol t hc
      exact ⟨e, by rw [firstLine_eol t hc]; exact h1, h3, fun h => absurd h h2, by rw [firstLine_eol t hc]; exact h4⟩
    | false =>
      have hcr : c ≠ '\r' := by rintro rfl; cases hc
      rw [firstLine_cons t hc, afterLine_cons t hc]
      cases t with
      | nil => exact ⟨[], rfl, by simp, fun _ => rfl, by rw [splits, if_neg (by simp [hc])]; rfl⟩
      | cons d t =>
        obtain ⟨e, h1, h2, h3, h4⟩ := ih (by simp)
        refine ⟨e, by rw [List.cons_append, ← h1], h2, h3, ?_⟩
        rw [splits, if_neg (by simp [hcr]), if_neg (by simp [hc]), h4]

theorem afterLine_lt {t : Text} (h : t ≠ []) : (afterLine t).length < t.length := by
  obtain ⟨e, h1, _, h3, _⟩ := splits_cons h
  have hl := congrArg List.length h1
  simp only [List.length_append] at hl
  by_cases he : e = []
  · rw [h3 he]
    exact List.length_pos_iff.mpr h
  · have := List.length_pos_iff.mpr he
    omega

/-- Nothing is lost in the split. -/
theorem joins_splits (t : Text) : joins (splits t) = t := by
  induction hn : t.length using Nat.strongRecOn generalizing t with
  | ind n ih =>
    by_cases h : t = []
    · subst h; rfl
    · obtain ⟨e, h1, _, _, h4⟩ := splits_cons h
      have ih' := ih _ (hn ▸ afterLine_lt h) (afterLine t) rfl
      rw [h4]
      unfold joins at ih' ⊢
      rw [List.map_cons, List.flatten_cons, ih', List.append_assoc]
      exact h1.symm

/-- Lines have no end of line inside. -/
theorem splits_line {t : Text} : ∀ l ∈ splits t, (∀ c ∈ l.1, isEol c = false) ∧ (∀ c ∈ l.2, isEol c = true) := by
  induction hn : t.length using Nat.strongRecOn generalizing t with
  | ind n ih =>
    by_cases h : t = []
    · subst h; exact fun l hl => nomatch hl
    · obtain ⟨e, h1, h2, _, h4⟩ := splits_cons h
      rw [h4]
      intro l hl
      rcases List.mem_cons.mp hl with rfl | hl
      · refine ⟨fun c hc => ?_, h2⟩
        have := List.all_eq_true.mp (List.all_takeWhile (p := fun c => !isEol c) (l := t)) c hc
        simpa using this
      · exact ih _ (hn ▸ afterLine_lt h) rfl l hl

/-- Blanks, then the end of the line. -/
theorem eol_blanks (t : Text) : eol (t.dropWhile isBlank) = if (firstLine t).all isBlank then some (afterLine t) else none := by
  induction t with
  | nil => rfl
  | cons c t ih =>
    cases hc : isEol c with
    | true =>
      have hb : isBlank c = false := by
        simp only [isEol, Bool.or_eq_true, beq_iff_eq] at hc
        rcases hc with rfl | rfl <;> rfl
      rw [List.dropWhile_cons_of_neg (by simp [hb]), firstLine_eol t hc]
      have := eol_after (c :: t)
      rw [List.dropWhile_cons_of_neg (by simp [hc])] at this
      simpa using this
    | false =>
      rw [firstLine_cons t hc, afterLine_cons t hc]
      cases hb : isBlank c with
      | true => rw [List.dropWhile_cons_of_pos hb, ih]; simp [hb]
      | false =>
        rw [List.dropWhile_cons_of_neg (by simp [hb])]
        have : eol (c :: t) = none := by
          show newline (c :: t) = none
          simp only [isEol, Bool.or_eq_false_iff, beq_eq_false_iff_ne] at hc
          rw [newline_lit]; simp [matchLit, Ne.symm hc.1, Ne.symm hc.2]
        rw [this]; simp [hb]

variable {σ : Type} {S : Sem σ}

theorem yields_blanks_eol (t : Text) : Yields grammar S (.seq (.star (.rule R.Space)) (.rule R.EOL)) t
    (if (firstLine t).all isBlank then some (afterLine t) else none) :=
  yields_seq yields_spaces (yields_EOL.to (eol_blanks t))

theorem firstLine_dropWhile {p : Char → Bool} (hp : ∀ c, p c = true → isEol c = false) (t : Text) :
    firstLine (t.dropWhile p) = (firstLine t).dropWhile p ∧ afterLine (t.dropWhile p) = afterLine t := by
  induction t with
  | nil => exact ⟨rfl, rfl⟩
  | cons c t ih =>
    cases h : p c with
    | true =>
      have hc := hp c h
      rw [List.dropWhile_cons_of_pos h, firstLine_cons t hc, afterLine_cons t hc, List.dropWhile_cons_of_pos h]
      exact ih
    | false =>
      rw [List.dropWhile_cons_of_neg (by simp [h])]
      refine ⟨?_, rfl⟩
      cases hc : isEol c with
      | true => rw [firstLine_eol t hc]; rfl
      | false => rw [firstLine_cons t hc, List.dropWhile_cons_of_neg (by simp [h])]

end Grammar
end Verif
