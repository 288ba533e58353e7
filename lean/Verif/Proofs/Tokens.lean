import Verif.Proofs.Yields
import Verif.Proofs.GrammarValid

/-!
The basic rules of the grammar (ends of lines, spaces, blank lines, characters), and termination.
-/
namespace Verif
namespace Grammar
open Peg
variable {σ : Type} {S : Sem σ} {t : Text}

/-- The text after one end of line: `\n`, `\r\n` or `\r`. -/
def newline : Text → Option Text
  | '\n' :: t => some t
  | '\r' :: '\n' :: t => some t
  | '\r' :: t => some t
  | _ => none

/-- The same, or the end of the text. -/
def eol : Text → Option Text
  | [] => some []
  | t => newline t

/-- A character that ends a line. -/
def isEol (c : Char) : Bool := c == '\n' || c == '\r'

/-- A space or a tab. -/
def isBlank (c : Char) : Bool := c == '\t' || c == ' '

theorem newline_lit (t : Text) : newline t =
    match matchLit ['\n'] t with
    | some u => some u
    | none => match matchLit ['\r', '\n'] t with
      | some u => some u
      | none => matchLit ['\r'] t := by
  cases t with
  | nil => rfl
  | cons c t =>
    by_cases h1 : c = '\n'
    · subst h1; rfl
    by_cases h2 : c = '\r'
    · subst h2
      cases t with
      | nil => rfl
      | cons d t =>
        by_cases h3 : d = '\n'
        · subst h3; rfl
        · have e1 : newline ('\r' :: d :: t) = some (d :: t) := by
            unfold newline
            split
            · next h => cases h
            · next h => cases h; exact absurd rfl h3
            · next h => cases h; rfl
            · next h => exact absurd rfl (h _)
          rw [e1]
          simp [matchLit, Ne.symm h3]
    · have e1 : newline (c :: t) = none := by
        unfold newline
        split
        · next h => cases h; exact absurd rfl h1
        · next h => cases h; exact absurd rfl h2
        · next h => cases h; exact absurd rfl h2
        · rfl
      rw [e1]
      simp [matchLit, Ne.symm h1, Ne.symm h2]

theorem yields_Newline : Yields grammar S (.rule R.Newline) t (newline t) := by
  refine yields_rule (yields_act ?_)
  have hl : ∀ l, Yields grammar S (.lit l) t (matchLit l t) := fun l => yields_lit
  rw [newline_lit]
  cases h1 : matchLit ['\n'] t with
  | some u => exact yields_alt_left ((hl _).to h1)
  | none =>
    refine yields_alt_right ((hl _).to h1) ?_
    cases h2 : matchLit ['\r', '\n'] t with
    | some u => exact yields_alt_left ((hl _).to h2)
    | none => exact yields_alt_right ((hl _).to h2) (hl _)

theorem yields_EOF_nil : Yields grammar S (.rule R.EOF) [] (some []) := yields_rule (yields_notP yields_any_nil)

theorem never_EOF {c : Char} : Never grammar S (.rule R.EOF) (c :: t) :=
  yields_rule (never_notP yields_any_cons.sure)

theorem yields_NotEOF {c : Char} : Yields grammar S (.rule R.NotEOF) (c :: t) (some (c :: t)) :=
  yields_rule (yields_andP yields_any_cons.sure)

theorem never_NotEOF : Never grammar S (.rule R.NotEOF) [] := yields_rule (never_andP yields_any_nil)

theorem yields_EOL : Yields grammar S (.rule R.EOL) t (eol t) := by
  refine yields_rule ?_
  cases t with
  | nil => exact yields_alt_right yields_Newline yields_EOF_nil
  | cons c t =>
    show Yields grammar S (.alt (.rule R.Newline) (.rule R.EOF)) (c :: t) (newline (c :: t))
    have h := yields_Newline (S := S) (t := c :: t)
    cases hn : newline (c :: t) with
    | some u => exact yields_alt_left (h.to hn)
    | none => exact yields_alt_right (h.to hn) never_EOF

theorem has_blank (x : Char) : (Cls.mk false ['\t', ' '] [] false false).has S.letter S.number x = isBlank x := by
  simp [Cls.has, isBlank, ← beq_iff_eq]

theorem has_line (x : Char) : (Cls.mk true ['\r', '\n'] [] false false).has S.letter S.number x = !isEol x := by
  simp [Cls.has, isEol, Bool.or_comm, ← beq_iff_eq]

theorem yields_Space {c : Char} (h : isBlank c = true) : Yields grammar S (.rule R.Space) (c :: t) (some t) :=
  yields_rule (yields_act (yields_cls (by rw [has_blank, h])))

theorem never_Space {c : Char} (h : isBlank c = false) : Never grammar S (.rule R.Space) (c :: t) :=
  yields_rule (yields_act (yields_cls_no (by rw [has_blank, h])))

theorem never_Space_nil : Never grammar S (.rule R.Space) [] := yields_rule (yields_act yields_cls_nil)

theorem yields_spaces : Yields grammar S (.star (.rule R.Space)) t (some (t.dropWhile isBlank)) :=
  yields_star_of isBlank never_Space_nil (fun _ _ h => yields_Space h) (fun _ _ h => never_Space h) t

theorem yields_AnyChar {c : Char} (h : isEol c = false) : Yields grammar S (.rule R.AnyChar) (c :: t) (some t) :=
  yields_rule (yields_act (yields_cls (by rw [has_line, h]; rfl)))

theorem never_AnyChar {c : Char} (h : isEol c = true) : Never grammar S (.rule R.AnyChar) (c :: t) :=
  yields_rule (yields_act (yields_cls_no (by rw [has_line, h]; rfl)))

theorem yields_AnyChars : Yields grammar S (.rule R.AnyChars) t (some (t.dropWhile (fun c => !isEol c))) := by
  refine yields_rule (yields_act ?_)
  have h := yields_star_cls (G := grammar) (S := S) (c := ⟨true, ['\r', '\n'], [], false, false⟩) t
  have e : (fun c => !isEol c) = (Cls.mk true ['\r', '\n'] [] false false).has S.letter S.number := by
    funext x; rw [has_line]
  rw [e]
  exact h

/-- What a blank line leaves: `none` when the line is not blank, or at the end of the text. -/
def blankLine : Text → Option Text
  | [] => none
  | t => eol (t.dropWhile isBlank)

theorem yields_BlankLine : Yields grammar S (.rule R.BlankLine) t (blankLine t) := by
  refine yields_rule (yields_act (yields_scope ?_))
  cases t with
  | nil => exact never_seq never_NotEOF
  | cons c t => exact yields_seq yields_NotEOF (yields_seq yields_spaces yields_EOL)

/-- A line that is continued in a table cell consumes something. -/
theorem cellLine_consumes {n : Nat} {st : Text} {s s' : σ} {u : Text}
    (h : run grammar S n cellLine st s t = some (.ok s' u)) : u.length < t.length := by
  obtain ⟨s1, hv⟩ : ∃ s1, Eval grammar S (.seq (.notP (.rule R.TableEndDelimiter)) (.seq (.notP (.rule R.BlankLine)) (.seq
      (.notP (.scope (.seq (.opt (.rule R.TableCellFormat)) (.lit ['|'])))) (.seq (.act 415 (.star (.cls ⟨true,
      ['|', '\r', '\n'], [], false, false⟩))) (.opt (.rule R.EOL)))))) t s t (.ok s1 u) := by
    rcases eval_act.mp (eval_of_run h) with ⟨s1, h1, h2⟩ | ⟨s1, v, h1, h2⟩
    · cases h2
    · cases h2
      rcases eval_scope.mp h1 with ⟨s2, h3, h4⟩ | ⟨s2, v, h3, h4⟩
      · cases h4
      · cases h4; exact ⟨_, h3⟩
  cases t with
  | nil =>
    have : Never grammar S cellLine [] := by
      refine yields_act (yields_scope (never_seq (never_notP (Yields.sure (u := []) ?_))))
      refine yields_rule (yields_alt_right ?_ yields_EOF_nil)
      exact yields_rule (yields_scope (never_seq yields_lit))
    cases this _ _ _ (eval_of_run h)
  | cons c t =>
    have hno : ∀ {o}, Yields grammar S cellLine (c :: t) o → o = some u := fun hy => (hy _ _ _ (eval_of_run h)).symm
    by_cases hb : c = '\n' ∨ c = '\r'
    · have hblank : ∃ v, blankLine (c :: t) = some v := by
        rcases hb with rfl | rfl
        · exact ⟨t, rfl⟩
        · show ∃ v, newline ('\r' :: t) = some v
          cases t with
          | nil => exact ⟨_, rfl⟩
          | cons d t =>
            by_cases hd : d = '\n'
            · subst hd; exact ⟨_, rfl⟩
            · rw [newline_lit]
              simp [matchLit, Ne.symm hd]
      obtain ⟨v, hblank⟩ := hblank
      have hend : Never grammar S (.rule R.TableEndDelimiter) (c :: t) := by
        refine yields_rule (yields_alt_right ?_ never_EOF)
        refine yields_rule (yields_scope (never_seq ?_))
        have e : matchLit ['|', '=', '=', '='] (c :: t) = none := by
          rcases hb with rfl | rfl <;> rfl
        exact yields_lit.to e
      have : Never grammar S cellLine (c :: t) := by
        refine yields_act (yields_scope (yields_seq (yields_notP hend) (never_seq (never_notP ?_))))
        exact Yields.sure (yields_BlankLine.to hblank)
      cases hno this
    by_cases hp : c = '|'
    · subst hp
      have hfmt : Yields grammar S (.scope (.seq (.opt (.rule R.TableCellFormat)) (.lit ['|']))) ('|' :: t) (some t) := by
        refine yields_scope (yields_seq (yields_opt_some (yields_rule (yields_act (yields_star_cls _)))) ?_)
        rw [List.dropWhile_cons_of_neg (by simp [Cls.has])]
        exact yields_lit
      -- the first two look-aheads may fail or succeed; the third fails
      obtain ⟨s2, w2, h2, hv⟩ := eval_seq.mp hv |>.resolve_left (by rintro ⟨_, _, h⟩; cases h)
      obtain ⟨s3, w3, h3, hv⟩ := eval_seq.mp hv |>.resolve_left (by rintro ⟨_, _, h⟩; cases h)
      obtain ⟨s4, w4, h4, hv⟩ := eval_seq.mp hv |>.resolve_left (by rintro ⟨_, _, h⟩; cases h)
      have e2 : w2 = '|' :: t := by
        rcases eval_notP.mp h2 with ⟨_, _, h⟩ | ⟨_, _, _, h⟩ <;> cases h; rfl
      have e3 : w3 = w2 := by
        rcases eval_notP.mp h3 with ⟨_, _, h⟩ | ⟨_, _, _, h⟩ <;> cases h; rfl
      rw [e3, e2] at h4
      cases never_notP hfmt.sure _ _ _ h4
    · -- at least one character is consumed
      obtain ⟨s2, w2, h2, hv⟩ := eval_seq.mp hv |>.resolve_left (by rintro ⟨_, _, h⟩; cases h)
      obtain ⟨s3, w3, h3, hv⟩ := eval_seq.mp hv |>.resolve_left (by rintro ⟨_, _, h⟩; cases h)
      obtain ⟨s4, w4, h4, hv⟩ := eval_seq.mp hv |>.resolve_left (by rintro ⟨_, _, h⟩; cases h)
      obtain ⟨s5, w5, h5, hv⟩ := eval_seq.mp hv |>.resolve_left (by rintro ⟨_, _, h⟩; cases h)
      have e2 : w2 = c :: t := by
        rcases eval_notP.mp h2 with ⟨_, _, h⟩ | ⟨_, _, _, h⟩ <;> cases h; rfl
      have e3 : w3 = w2 := by
        rcases eval_notP.mp h3 with ⟨_, _, h⟩ | ⟨_, _, _, h⟩ <;> cases h; rfl
      have e4 : w4 = w3 := by
        rcases eval_notP.mp h4 with ⟨_, _, h⟩ | ⟨_, _, _, h⟩ <;> cases h; rfl
      rw [e4, e3, e2] at h5
      have hc : (Cls.mk true ['|', '\r', '\n'] [] false false).has S.letter S.number c = true := by
        simp only [not_or] at hb
        simp [Cls.has, hb, hp]
      have h5 := yields_act (id := 415) (yields_star_cls (G := grammar) (S := S) (c := ⟨true, ['|', '\r', '\n'], [], false, false⟩) (c :: t)) _ _ _ h5
      rw [List.dropWhile_cons_of_pos hc] at h5
      have e5 : w5 = _ := Option.some.inj h5
      have l5 : w5.length ≤ t.length := by rw [e5]; exact (List.dropWhile_suffix _).length_le
      have l6 : u.length ≤ w5.length := by
        have : ∃ r, Yields grammar S (.opt (.rule R.EOL)) w5 (some r) ∧ r.length ≤ w5.length := by
          have hE := yields_EOL (S := S) (t := w5)
          cases he : eol w5 with
          | none => exact ⟨w5, yields_opt_none (hE.to he), Nat.le_refl _⟩
          | some r =>
            refine ⟨r, yields_opt_some (hE.to he), ?_⟩
            revert he
            cases w5 with
            | nil => intro he; cases he; exact Nat.le_refl _
            | cons d w =>
              intro he
              have he : newline (d :: w) = some r := he
              rw [newline_lit] at he
              have := fun l (h : matchLit l (d :: w) = some r) => (matchLit_suffix l _ _ h).length_le
              revert he
              cases h1 : matchLit ['\n'] (d :: w) with
              | some x => intro he; cases he; exact this _ h1
              | none =>
                cases h2 : matchLit ['\r', '\n'] (d :: w) with
                | some x => intro he; cases he; exact this _ h2
                | none => intro he; exact this _ he
        obtain ⟨r, hr, hl⟩ := this
        have := hr _ _ _ hv
        cases this
        exact hl
      simp only [List.length_cons]
      omega

end Grammar
end Verif
