import Verif.Proofs.PegLines
import Verif.Proofs.Prefix
import Verif.Props.FragmentLoop

/-!
# C48 — Which documents are parsed to the end

AsciiDoc has no syntax errors: every text is a document. The parser splits a document to its end as soon as each of its
lines is blank (spaces and tabs) or has a visible character after the prefix of an admonition, if any. Other lines — for
example a line with only a no-break space, or `NOTE: ` alone — make the parsing fail, or silently end the
document after block attributes.
-/
namespace Verif
namespace C48
open Peg Grammar FragmentLoop

/-- `unicode.IsSpace`, used by `strings.TrimSpace`. -/
def isSpace (c : Char) : Bool :=
  [0x9, 0xA, 0xB, 0xC, 0xD, 0x20, 0x85, 0xA0, 0x1680, 0x2028, 0x2029, 0x202F, 0x205F, 0x3000].contains c.toNat ||
    (decide (0x2000 ≤ c.toNat) && decide (c.toNat ≤ 0x200A))

/-- The lines of a text: `\n` and `\r` end lines. -/
def lines : Text → List Text
  | [] => [[]]
  | c :: t => if isEol c then [] :: lines t else match lines t with
    | [] => [[c]]
    | l :: ls => (c :: l) :: ls

/-- Some character is not a space. -/
def Visible (l : Text) : Prop := ∃ c ∈ l, isSpace c = false

/-- The prefixes of admonitions (parser.peg:1728-1737). -/
def admonitions : List Text :=
  ["TIP: ".toList, "NOTE: ".toList, "IMPORTANT: ".toList, "WARNING: ".toList, "CAUTION: ".toList]

/-- A line that is blank, or has a visible character, also after the prefix of an admonition. -/
def GoodLine (l : Text) : Prop :=
  (∀ c ∈ l, isBlank c = true) ∨ (Visible l ∧ ∀ p ∈ admonitions, ∀ r, l = p ++ r → Visible r)

/-- What is assumed of the code of the grammar: `attributes != nil || element != nil` (47, parser.peg:253) says that
something was matched, `len(strings.TrimSpace(content.(string))) > 0` (303, parser.peg:1785) that the line is visible, and the three other
predicates that check progress do (see C45). -/
structure Code {σ : Type} (S : Sem σ) : Prop where
  fragment : ∀ s st t, (S.pred 47 s st t).1 = true ↔ t.length < st.length
  visible : ∀ s p t, (S.pred 303 s (p ++ t) t).1 = p.any (fun c => !isSpace c)
  others : ∀ id ∈ [85, 181, 428], ∀ s st t, (S.pred id s st t).1 = true → t.length < st.length

theorem Code.progress {σ : Type} {S : Sem σ} (h : Code S) : C45.ChecksProgress S := by
  intro id hid s st t hp
  rcases List.mem_cons.mp hid with rfl | hid
  · exact (h.fragment s st t).mp hp
  · exact h.others id hid s st t hp

/-- The choice of the element of a fragment (parser.peg:236-252). -/
def element : Exp :=
  .alt (.rule R.ImageBlock) (.alt (.rule R.UserMacroBlock) (.alt (.rule R.ShortcutParagraph) (.alt (.rule
    R.AttributeDeclaration) (.alt (.rule R.AttributeReset) (.alt (.rule R.BlankLine) (.alt (.rule R.DocumentHeader)
    (.alt (.rule R.Section) (.alt (.rule R.DelimitedBlock) (.alt (.rule R.ThematicBreak) (.alt (.rule R.ListElements)
    (.alt (.rule R.Table) (.alt (.rule R.SinglelineComment) (.alt (.rule R.FrontMatter) (.rule R.Paragraph))))))))))))))

theorem fragment_rule : grammar R.DocumentFragment = .act 48 (.scope (.seq (.rule R.NotEOF)
    (.seq (.opt (.rule R.BlockAttributes)) (.seq (.state 46) (.seq (.opt element) (.pred 47)))))) := rfl

/-- The first line of a text. -/
def firstLine (t : Text) : Text := t.takeWhile (fun c => !isEol c)

theorem lines_head (t : Text) : ∃ ls, lines t = firstLine t :: ls := by
  induction t with
  | nil => exact ⟨[], rfl⟩
  | cons c t ih =>
    obtain ⟨ls, ih⟩ := ih
    unfold lines firstLine
    cases h : isEol c with
    | true => exact ⟨lines t, by simp [h]⟩
    | false =>
      refine ⟨ls, ?_⟩
      rw [ih, List.takeWhile_cons_of_pos (by simp [h])]
      simp [firstLine]

theorem mem_lines_cons (c : Char) (t : Text) (l : Text) (h : l ∈ (lines t).tail) : l ∈ (lines (c :: t)).tail := by
  unfold lines
  split
  · exact List.mem_of_mem_tail h
  · cases hl : lines t with
    | nil => rw [hl] at h; exact h
    | cons x ls => rw [hl] at h; exact h

/-- The lines after the end of a line are lines of the text. -/
theorem lines_after (p : Text) (c : Char) (u : Text) (hc : isEol c = true) : ∀ l ∈ lines u, l ∈ (lines (p ++ c :: u)).tail := by
  induction p with
  | nil =>
    intro l hl
    show l ∈ (lines (c :: u)).tail
    unfold lines
    rw [if_pos hc]
    exact hl
  | cons d p ih => exact fun l hl => mem_lines_cons d _ l (ih l hl)

theorem good_after {t u : Text} (h : ∀ l ∈ lines t, GoodLine l) (hu : LineEnd t u) : ∀ l ∈ lines u, GoodLine l := by
  rcases hu with rfl | ⟨p, c, rfl, hc⟩
  · intro l hl
    rw [List.mem_singleton.mp hl]
    exact .inl (fun c hc => nomatch hc)
  · exact fun l hl => h l (List.mem_of_mem_tail (lines_after p c u hc l hl))

variable {σ : Type} {S : Sem σ}

theorem eol_some (t : Text) : ∃ v, eol (t.dropWhile (fun c => !isEol c)) = some v := by
  cases h : t.dropWhile (fun c => !isEol c) with
  | nil => exact ⟨_, rfl⟩
  | cons c u =>
    have hc : isEol c = true := by
      have := List.head?_dropWhile_not (fun c => !isEol c) t
      rw [h] at this
      simpa using this
    simp only [isEol, Bool.or_eq_true, beq_iff_eq] at hc
    rcases hc with rfl | rfl
    · exact ⟨u, rfl⟩
    · show ∃ v, newline ('\r' :: u) = some v
      cases u with
      | nil => exact ⟨_, rfl⟩
      | cons d u =>
        by_cases hd : d = '\n'
        · subst hd; exact ⟨_, rfl⟩
        · rw [newline_lit]; simp [matchLit, Ne.symm hd]

theorem eol_sure (t : Text) : Sure grammar S (.rule R.EOL) (t.dropWhile (fun c => !isEol c)) := by
  obtain ⟨v, hv⟩ := eol_some t
  exact (yields_EOL.to hv).sure

/-- A visible line is a line of a paragraph. -/
theorem rawLine_sure (hS : Code S) {t : Text} (h : Visible (firstLine t)) : Sure grammar S (.rule R.ParagraphRawLine) t := by
  have hsplit : firstLine t ++ t.dropWhile (fun c => !isEol c) = t := List.takeWhile_append_dropWhile
  obtain ⟨x, hx, hxs⟩ := h
  have hmany : Yields grammar S (.rule R.ManyChars) t (some (t.dropWhile (fun c => !isEol c))) := by
    have e : (fun c => !isEol c) = (Cls.mk true ['\r', '\n'] [] false false).has S.letter S.number := by
      funext x; rw [has_line]
    refine yields_rule (yields_act ?_)
    cases t with
    | nil => cases hx
    | cons c t =>
      have hc : isEol c = false := by
        cases hc : isEol c with
        | false => rfl
        | true => simp [firstLine, hc] at hx
      rw [List.dropWhile_cons_of_pos (by simp [hc]), e]
      exact yields_plus_step (yields_cls (by rw [has_line, hc]; rfl)) (yields_star_cls t)
  have hpred : ∀ s, (S.pred 303 s t (t.dropWhile (fun c => !isEol c))).1 = true := by
    intro s
    have := hS.visible s (firstLine t) (t.dropWhile (fun c => !isEol c))
    rw [hsplit] at this
    rw [this]
    exact List.any_eq_true.mpr ⟨x, hx, by simp [hxs]⟩
  refine sure_rule (sure_act ?_)
  intro st s r hr
  rcases eval_scope.mp hr with ⟨s1, h1, rfl⟩ | ⟨s1, v, h1, rfl⟩
  · rcases eval_seq.mp h1 with ⟨s2, h2, h3⟩ | ⟨s2, v, h2, h3⟩
    · cases hmany _ _ _ h2
    · cases hmany _ _ _ h2
      rcases eval_seq.mp h3 with ⟨s4, h4, h5⟩ | ⟨s4, w, h4, h5⟩
      · have := eval_pred.mp h4
        rcases hp : S.pred 303 s2 t (t.dropWhile (fun c => !isEol c)) with ⟨b, s'⟩
        have hb := hpred s2
        rw [hp] at this hb
        cases hb
        cases this
      · have := eval_pred.mp h4
        rcases hp : S.pred 303 s2 t (t.dropWhile (fun c => !isEol c)) with ⟨b, s'⟩
        have hb := hpred s2
        rw [hp] at this hb
        cases hb
        cases this
        cases eol_sure t _ _ _ h5
  · rfl

/-- The style of a paragraph takes nothing, or the prefix of an admonition. -/
theorem style_takes {st : Text} {s s' : σ} {t u : Text} (h : Eval grammar S (.rule R.ParagraphStyle) st s t (.ok s' u)) :
    u = t ∨ ∃ p ∈ admonitions, t = p ++ u := by
  have lit : ∀ (l : List Char) {st : Text} {s s' : σ} {t u : Text} {i : Nat}, '\uFFFD' ∉ l → Eval grammar S (.act i (.lit l)) st s t (.ok s' u) →
      t = l ++ u := by
    intro l st s s' t u i hl h
    rcases eval_act.mp h with ⟨_, _, h2⟩ | ⟨_, _, h1, h2⟩
    · cases h2
    cases h2
    have h3 := eval_lit.mp h1
    cases hm : matchLit l t with
    | none => rw [hm] at h3; cases h3
    | some v =>
      rw [hm] at h3; cases h3
      clear h h1
      induction l generalizing t with
      | nil => cases hm; rfl
      | cons a l ih =>
        cases t with
        | nil =>
          unfold matchLit at hm
          split at hm
          · next e => exact absurd (e ▸ List.mem_cons_self) hl
          · cases hm
        | cons c t =>
          unfold matchLit at hm
          split at hm
          · next e => rw [e, ih (fun h => hl (List.mem_cons_of_mem _ h)) hm]; rfl
          · cases hm
  have h := eval_rule.mp h
  rcases eval_act.mp h with ⟨_, _, h2⟩ | ⟨_, _, h1, h2⟩
  · cases h2
  cases h2
  rcases eval_scope.mp h1 with ⟨_, _, h2⟩ | ⟨_, _, h1, h2⟩
  · cases h2
  cases h2
  rcases eval_seq.mp h1 with ⟨_, _, h2⟩ | ⟨s2, v, h2, h3⟩
  · cases h2
  have e : v = t := by
    have := eval_pred.mp h2
    rcases hp : S.pred 290 s t t with ⟨b, s'⟩
    rw [hp] at this
    cases b <;> cases this
    rfl
  subst e
  rcases eval_alt.mp h3 with ⟨_, _, h3⟩ | ⟨_, _, h4, h5⟩
  rotate_left
  · cases h5; exact .inr ⟨_, by simp [admonitions], lit _ (by decide) h4⟩
  rcases eval_alt.mp h3 with ⟨_, _, h3⟩ | ⟨_, _, h4, h5⟩
  rotate_left
  · cases h5; exact .inr ⟨_, by simp [admonitions], lit _ (by decide) h4⟩
  rcases eval_alt.mp h3 with ⟨_, _, h3⟩ | ⟨_, _, h4, h5⟩
  rotate_left
  · cases h5; exact .inr ⟨_, by simp [admonitions], lit _ (by decide) h4⟩
  rcases eval_alt.mp h3 with ⟨_, _, h3⟩ | ⟨_, _, h4, h5⟩
  rotate_left
  · cases h5; exact .inr ⟨_, by simp [admonitions], lit _ (by decide) h4⟩
  rcases eval_alt.mp h3 with ⟨_, _, h3⟩ | ⟨_, _, h4, h5⟩
  rotate_left
  · cases h5; exact .inr ⟨_, by simp [admonitions], lit _ (by decide) h4⟩
  rcases eval_act.mp h3 with ⟨_, _, h6⟩ | ⟨_, _, h7, h6⟩
  · cases h6
  cases h6
  rcases eval_andP.mp h7 with ⟨_, _, h2⟩ | ⟨_, _, _, h2⟩
  · cases h2
  cases h2
  exact .inl rfl

theorem sure_star {e : Exp} (t : Text) : Sure grammar S (.star e) t := by
  intro st s r hr
  obtain ⟨n, hr⟩ := hr
  induction n generalizing s t with
  | zero => cases hr
  | succ n ih =>
    unfold run at hr
    cases h : run grammar S n e st s t with
    | none => rw [h] at hr; cases hr
    | some x =>
      rw [h] at hr
      cases x with
      | fail s' => cases hr; rfl
      | ok s' u => exact ih u s' hr

theorem firstLine_append {p u : Text} (h : ∀ c ∈ p, isEol c = false) : firstLine (p ++ u) = p ++ firstLine u := by
  induction p with
  | nil => rfl
  | cons c p ih =>
    have hc := h c List.mem_cons_self
    show List.takeWhile _ (c :: (p ++ u)) = _
    rw [List.takeWhile_cons_of_pos (by simp [hc])]
    exact congrArg (c :: ·) (ih (fun d hd => h d (List.mem_cons_of_mem _ hd)))

theorem admonitions_inline : ∀ p ∈ admonitions, ∀ c ∈ p, isEol c = false := by decide

/-- A visible line starts a paragraph. -/
theorem paragraph_sure (hS : Code S) {t : Text} (hv : Visible (firstLine t))
    (ha : ∀ p ∈ admonitions, ∀ r, firstLine t = p ++ r → Visible r) : Sure grammar S (.rule R.Paragraph) t := by
  refine sure_rule (sure_act (sure_scope ?_))
  intro st s r hr
  have hu : ∀ u, (u = t ∨ ∃ p ∈ admonitions, t = p ++ u) → Visible (firstLine u) := by
    rintro u (rfl | ⟨p, hp, rfl⟩)
    · exact hv
    · exact ha p hp _ (firstLine_append (admonitions_inline p hp))
  have hrest : ∀ u, (u = t ∨ ∃ p ∈ admonitions, t = p ++ u) → ∀ s r e, Eval grammar S (.seq (.rule R.ParagraphRawLine)
      (.star e)) st s u r → r.rest.isSome = true := by
    intro u h s r e hr
    rcases eval_seq.mp hr with ⟨s1, h1, rfl⟩ | ⟨s1, v, h1, h2⟩
    · exact absurd (rawLine_sure hS (hu u h) _ _ _ h1) (by simp [Res.rest])
    · exact sure_star v _ _ _ h2
  rcases eval_seq.mp hr with ⟨s1, h1, rfl⟩ | ⟨s1, v, h1, h2⟩
  · rcases eval_opt.mp h1 with ⟨s2, _, h⟩ | ⟨s2, u, _, h⟩ <;> cases h
  · rcases eval_opt.mp h1 with ⟨s2, _, h⟩ | ⟨s2, u, h3, h⟩
    · cases h; exact hrest t (.inl rfl) _ _ _ h2
    · cases h; exact hrest v (style_takes h3) _ _ _ h2

theorem blank_sure {t : Text} (h0 : t ≠ []) (h : ∀ c ∈ firstLine t, isBlank c = true) : Sure grammar S (.rule R.BlankLine) t := by
  have e : ∀ t : Text, (∀ c ∈ firstLine t, isBlank c = true) → t.dropWhile isBlank = t.dropWhile (fun c => !isEol c) := by
    intro t
    induction t with
    | nil => intro _; rfl
    | cons c t ih =>
      intro h
      cases hc : isEol c with
      | true =>
        have hb : isBlank c = false := by
          simp only [isEol, Bool.or_eq_true, beq_iff_eq] at hc
          rcases hc with rfl | rfl <;> rfl
        rw [List.dropWhile_cons_of_neg (by simp [hb]), List.dropWhile_cons_of_neg (by simp [hc])]
      | false =>
        have hf : firstLine (c :: t) = c :: firstLine t := by
          unfold firstLine; rw [List.takeWhile_cons_of_pos (by simp [hc])]
        rw [hf] at h
        rw [List.dropWhile_cons_of_pos (h c List.mem_cons_self), List.dropWhile_cons_of_pos (by simp [hc])]
        exact ih (fun d hd => h d (List.mem_cons_of_mem _ hd))
  obtain ⟨v, hv⟩ := eol_some t
  rw [← e t h] at hv
  refine (yields_BlankLine.to (o' := some v) ?_).sure
  cases t with
  | nil => exact absurd rfl h0
  | cons c t => exact hv

/-- Some element matches where a good line begins. -/
theorem element_sure (hS : Code S) {t : Text} (h0 : t ≠ []) (h : GoodLine (firstLine t)) : Sure grammar S element t := by
  rcases h with h | ⟨hv, ha⟩
  · have := blank_sure (S := S) h0 h
    exact sure_alt_right (sure_alt_right (sure_alt_right (sure_alt_right (sure_alt_right (sure_alt_left this)))))
  · have := paragraph_sure hS hv ha
    exact sure_alt_right (sure_alt_right (sure_alt_right (sure_alt_right (sure_alt_right (sure_alt_right (sure_alt_right
      (sure_alt_right (sure_alt_right (sure_alt_right (sure_alt_right (sure_alt_right (sure_alt_right (sure_alt_right
      this)))))))))))))

theorem element_consumes (hS : Code S) {n : Nat} {s s' : σ} {st t u : Text}
    (h : run grammar S n element st s t = some (.ok s' u)) : u.length < t.length := by
  have f := fact cert grammar S valid.toSound hS.progress n _ _ _ _ _ h
  have hs := f.suffix u rfl
  rcases Nat.lt_or_ge u.length t.length with hl | hl
  · exact hl
  · have e' : u = t := eq_of_suffix_length hs hl
    by_cases h0 : t = []
    · exact absurd (f.may0 h0 rfl) (by decide +kernel)
    · exact absurd (f.may1 h0 (by rw [e']; rfl)) (by decide +kernel)

theorem attributes_end (hS : Code S) {n : Nat} {s s' : σ} {st t u : Text}
    (h : run grammar S n (.rule R.BlockAttributes) st s t = some (.ok s' u)) : u.length < t.length ∧ LineEnd t u := by
  have f := fact cert grammar S valid.toSound hS.progress n _ _ _ _ _ h
  have hs := f.suffix u rfl
  have hlt : u.length < t.length := by
    rcases Nat.lt_or_ge u.length t.length with hl | hl
    · exact hl
    · have e' : u = t := eq_of_suffix_length hs hl
      by_cases h0 : t = []
      · exact absurd (f.may0 h0 rfl) (by decide +kernel)
      · exact absurd (f.may1 h0 (by rw [e']; rfl)) (by decide +kernel)
  refine ⟨hlt, (rule_line_ends hS.progress (by decide +kernel) h).resolve_left ?_⟩
  rintro rfl
  omega

theorem good_head {t : Text} (h : ∀ l ∈ lines t, GoodLine l) : GoodLine (firstLine t) := by
  obtain ⟨ls, e⟩ := lines_head t
  exact h _ (e ▸ List.mem_cons_self)

/-- A fragment matches where lines are good. -/
theorem fragment_sure (hS : Code S) {t : Text} (h0 : t ≠ []) (h : ∀ l ∈ lines t, GoodLine l) :
    Sure grammar S (.rule R.DocumentFragment) t := by
  refine sure_rule ?_
  rw [fragment_rule]
  refine sure_act ?_
  intro st s r hr
  have tail : ∀ u s r, (u = t ∨ (u.length < t.length ∧ LineEnd t u)) → Eval grammar S (.seq (.state 46) (.seq (.opt element)
      (.pred 47))) t s u r → r.rest.isSome = true := by
    intro u s r hu hr
    have hp : ∀ s v r, v.length < t.length → Eval grammar S (.pred 47) t s v r → r.rest.isSome = true := by
      intro s v r hv hr
      have := (hS.fragment s t v).mpr hv
      rw [eval_pred.mp hr]
      rcases hp : S.pred 47 s t v with ⟨b, s'⟩
      rw [hp] at this
      cases this
      rfl
    rcases eval_seq.mp hr with ⟨s1, h1, rfl⟩ | ⟨s1, v, h1, h2⟩
    · cases eval_state.mp h1
    cases eval_state.mp h1
    rcases eval_seq.mp h2 with ⟨s2, h3, rfl⟩ | ⟨s2, w, h3, h4⟩
    · rcases eval_opt.mp h3 with ⟨_, _, h⟩ | ⟨_, _, _, h⟩ <;> cases h
    refine hp _ _ _ ?_ h4
    rcases eval_opt.mp h3 with ⟨_, h5, h6⟩ | ⟨_, _, ⟨n, h5⟩, h6⟩
    · cases h6
      rcases hu with rfl | ⟨hl, _⟩
      · exact absurd (element_sure hS h0 (good_head h) _ _ _ h5) (by simp [Res.rest])
      · exact hl
    · cases h6
      have := element_consumes hS h5
      rcases hu with rfl | ⟨hl, _⟩ <;> omega
  obtain ⟨c, t', rfl⟩ : ∃ c t', t = c :: t' := by
    cases t with
    | nil => exact absurd rfl h0
    | cons c t' => exact ⟨c, t', rfl⟩
  rcases eval_scope.mp hr with ⟨s1, h1, rfl⟩ | ⟨s1, v, h1, rfl⟩
  · rcases eval_seq.mp h1 with ⟨_, h2, _⟩ | ⟨_, v, h2, h3⟩
    · cases yields_NotEOF _ _ _ h2
    cases yields_NotEOF _ _ _ h2
    rcases eval_seq.mp h3 with ⟨_, h4, h5⟩ | ⟨_, v, h4, h5⟩
    · rcases eval_opt.mp h4 with ⟨_, _, h⟩ | ⟨_, _, _, h⟩ <;> cases h
    rcases eval_opt.mp h4 with ⟨_, _, h⟩ | ⟨_, _, ⟨n, h6⟩, h⟩
    · cases h
      exact absurd (tail _ _ _ (.inl rfl) h5) (by simp [Res.rest])
    · cases h
      exact absurd (tail _ _ _ (.inr (attributes_end hS h6)) h5) (by simp [Res.rest])
  · rfl

theorem fragment_end (hS : Code S) {n : Nat} {s s' : σ} {st t u : Text}
    (h : run grammar S n (.rule R.DocumentFragment) st s t = some (.ok s' u)) : u.length < t.length ∧ LineEnd t u := by
  have hlt := (C46.fragment_consumes S hS.progress h).1
  refine ⟨hlt, (rule_line_ends hS.progress (by decide +kernel) h).resolve_left ?_⟩
  rintro rfl
  omega

/-- `nilValue` says what the grammar does (parser.peg:258-266): the value of a fragment is the one of the element, nil only when no
element matched what follows the attributes. -/
def NilElement (S : Sem σ) (nilValue : σ → Bool) : Prop :=
  ∀ n s t s' u, run grammar S n (.rule R.DocumentFragment) t s t = some (.ok s' u) → nilValue s' = true →
    ∃ st s1 s2, Eval grammar S element st s1 u (.fail s2)

/-- **C48**: a document in which each line is blank, or has a visible character (after the prefix of an admonition
too), is split to its end, unless the code in the grammar reports an error: no fragment fails, and a fragment without element
(block attributes alone) is the last one. -/
theorem parsed_to_the_end (hS : Code S) (failed nilValue : σ → Bool) (hnil : NilElement S nilValue) {depth : Nat} :
    ∀ {rounds a : Nat} {s : σ} {t : Text} {o : Outcome}, (∀ l ∈ lines t, GoodLine l) →
      loop S failed nilValue depth rounds a s t = some o → o.stop = .reported ∨ (o.stop ≠ .noMatch ∧ o.rest = [])
  | 0, _, _, _, _, _, h => nomatch h
  | r + 1, a, s, [], o, _, h => by
    cases h; exact .inr ⟨(fun h => nomatch h), rfl⟩
  | r + 1, a, s, c :: t, o, hg, h => by
    unfold loop at h
    cases hrun : run grammar S depth (.rule R.DocumentFragment) (c :: t) s (c :: t) with
    | none => rw [hrun] at h; cases h
    | some x =>
      rw [hrun] at h
      cases x with
      | fail s' => exact absurd (fragment_sure hS (List.cons_ne_nil _ _) hg _ _ _ (eval_of_run hrun)) (by simp [Res.rest])
      | ok s' u =>
        have hu := good_after hg (fragment_end hS hrun).2
        dsimp only at h
        split at h
        · cases h; exact .inl rfl
        · split at h
          · next hn =>
            cases h
            refine .inr ⟨(fun h => nomatch h), ?_⟩
            obtain ⟨st, s1, s2, hf⟩ := hnil _ _ _ _ _ hrun hn
            cases u with
            | nil => rfl
            | cons d u =>
              exact absurd (element_sure hS (List.cons_ne_nil _ _) (good_head hu) _ _ _ hf) (by simp [Res.rest])
          · cases hl : loop S failed nilValue depth r (a + ((c :: t).length - u.length)) s' u with
            | none => rw [hl] at h; cases h
            | some o' =>
              rw [hl] at h
              cases h
              have ih := parsed_to_the_end hS failed nilValue hnil hu hl
              exact ih

/-- The same with the loop ending (C46). -/
theorem accepted (hS : Code S) (failed nilValue : σ → Bool) (hnil : NilElement S nilValue) (s : σ) (t : Text)
    (hg : ∀ l ∈ lines t, GoodLine l) : ∃ depth rounds o, loop S failed nilValue depth rounds 0 s t = some o ∧
      (o.stop = .reported ∨ (o.stop ≠ .noMatch ∧ o.rest = [])) := by
  obtain ⟨d, r, o, h⟩ := C46.fragments_end S hS.progress failed nilValue 0 s t
  exact ⟨d, r, o, h, parsed_to_the_end hS failed nilValue hnil hg h⟩

/-- Ends of fragments are ends of lines, in all documents. -/
theorem fragments_at_lines (hS : Code S) {n : Nat} {s s' : σ} {t u : Text}
    (h : run grammar S n (.rule R.DocumentFragment) t s t = some (.ok s' u)) : u = [] ∨ ∃ p c, t = p ++ c :: u ∧ (c = '\n' ∨ c = '\r') := by
  rcases (fragment_end hS h).2 with h | ⟨p, c, h, hc⟩
  · exact .inl h
  · exact .inr ⟨p, c, h, by simpa [isEol] using hc⟩

/-! ### The hypotheses can be met -/

/-- A meaning of the code: the value is said to be nil at the end of the document only. -/
def exactSem : Sem Bool where
  letter c := c.isAlpha
  number c := c.isDigit
  pred id s st t := (if id = 303 then (st.take (st.length - t.length)).any (fun c => !isSpace c)
    else decide (t.length < st.length), s)
  state _ s _ _ := s
  act id s _ t := if id = 48 then t.isEmpty else s
  restore saved _ := saved

theorem exactSem_code : Code exactSem where
  fragment s st t := decide_eq_true_iff
  visible s p t := by
    show List.any (List.take _ _) _ = _
    rw [List.length_append, Nat.add_sub_cancel, List.take_left' rfl]
  others id hid s st t h := by
    have hne : id ≠ 303 := by
      rintro rfl; revert hid; decide
    have : (if id = 303 then (st.take (st.length - t.length)).any (fun c => !isSpace c)
      else decide (t.length < st.length)) = true := h
    rw [if_neg hne] at this
    exact of_decide_eq_true this

theorem exactSem_nil : NilElement exactSem id := by
  intro n s t s' u h hn
  have h1 := eval_rule.mp (eval_of_run h)
  rw [fragment_rule] at h1
  rcases eval_act.mp h1 with ⟨_, _, h2⟩ | ⟨s1, v, h3, h2⟩
  · cases h2
  cases h2
  have hu : u = [] := List.isEmpty_iff.mp hn
  subst hu
  obtain ⟨r, hr⟩ := C45.exp_ends exactSem exactSem_code.progress element (by decide +kernel) [] true []
  cases r with
  | fail s2 => exact ⟨_, _, s2, hr⟩
  | ok s2 v =>
    obtain ⟨n, hr⟩ := hr
    have := element_consumes exactSem_code hr
    exact absurd this (by simp)

/-- A document with good lines. -/
def sample : Text := "= Title\n\n[.lead]\nNOTE: some\n \t\n|===\n* [\r\n====".toList

theorem sample_good : ∀ l ∈ lines sample, GoodLine l := by
  have e : lines sample = ["= Title".toList, [], "[.lead]".toList, "NOTE: some".toList, " \t".toList, "|===".toList, "* [".toList, [], "====".toList] := by
    decide +kernel
  rw [e]
  have visible : ∀ l : Text, l.any (fun c => !isSpace c) = true → Visible l := by
    intro l h
    obtain ⟨c, hc, h⟩ := List.any_eq_true.mp h
    exact ⟨c, hc, by simpa using h⟩
  have plain : ∀ l : Text, l.any (fun c => !isSpace c) = true → (admonitions.all fun p => !p.isPrefixOf l) = true → GoodLine l := by
    intro l h h'
    refine .inr ⟨visible l h, fun p hp r e => ?_⟩
    have := List.all_eq_true.mp h' p hp
    rw [Bool.not_eq_true'] at this
    rw [List.isPrefixOf_iff_prefix.mpr ⟨r, e.symm⟩] at this
    cases this
  have blank : ∀ l : Text, l.all isBlank = true → GoodLine l := fun l h => .inl (fun c hc => List.all_eq_true.mp h c hc)
  simp only [List.mem_cons, List.not_mem_nil, or_false, forall_eq_or_imp, forall_eq]
  refine ⟨plain _ rfl rfl, blank _ rfl, plain _ rfl rfl, ?_, blank _ rfl, plain _ rfl rfl, plain _ rfl rfl, blank _ rfl, plain _ rfl rfl⟩
  refine .inr ⟨visible _ rfl, fun p hp r e => ?_⟩
  have hp : p = "NOTE: ".toList := by
    have hpre : p.isPrefixOf "NOTE: some".toList = true := List.isPrefixOf_iff_prefix.mpr ⟨r, e.symm⟩
    simp only [admonitions, List.mem_cons, List.not_mem_nil, or_false] at hp
    rcases hp with rfl | rfl | rfl | rfl | rfl
    · cases hpre
    · rfl
    · cases hpre
    · cases hpre
    · cases hpre
  subst hp
  have : r = "some".toList := (List.append_cancel_left (as := "NOTE: ".toList) (bs := "some".toList) e).symm
  subst this
  exact visible _ rfl

example : ∃ depth rounds o, loop exactSem (fun _ => false) id depth rounds 0 false sample = some o ∧
    (o.stop = .reported ∨ (o.stop ≠ .noMatch ∧ o.rest = [])) :=
  accepted exactSem_code _ _ exactSem_nil _ _ sample_good

/-! ### Other lines -/

/-- What is known of the predicates, given what was consumed in their sequence: those of `Code`, that the paragraph is not
literal (290, parser.peg:1725), and the length of the separator of labeled lists (279, parser.peg:1670). -/
def known (id : Nat) (p : Text) : Option Bool :=
  if id = 303 then some (p.any (fun c => !isSpace c))
  else if id = 47 then some (!p.isEmpty)
  else if id = 290 then some true
  else if id = 279 then some (decide (2 ≤ p.length ∧ p.length ≤ 4))
  else none

/-- Lines with only spaces that are not spaces or tabs, or only the prefix of an admonition. -/
def badLines : List Text := ["\u00a0\n".toList, " \x0c\n".toList, "  \u3000\n".toList, "\u2028\r\n".toList, "NOTE: \n".toList, "TIP:  \n".toList,
  "CAUTION: \r\n".toList]

/-- **C48** (finding): a document that begins with such a line, whatever follows: the parsing fails, so the conversion does. -/
theorem rejected (hS : Follows S known) (hP : C45.ChecksProgress S) (failed nilValue : σ → Bool) (s : σ) (x : Text) :
    ∀ p ∈ badLines, ∃ depth, loop S failed nilValue depth 1 0 s (p ++ x) = some ⟨[], .noMatch, p ++ x⟩ := by
  intro p hp
  have h : runO grammar known 80 (.rule R.DocumentFragment) p p = some [.fail] := by
    revert p; decide +kernel
  obtain ⟨n, r, hr, _⟩ := C45.parse_ends S hP R.DocumentFragment s (p ++ x)
  have hn := never_of_prefix hS x h _ _ _ (eval_of_run hr)
  refine ⟨n, ?_⟩
  obtain ⟨c, t', e⟩ : ∃ c t', p ++ x = c :: t' := by
    cases p with
    | nil => exact absurd hp (by decide)
    | cons c t' => exact ⟨c, _, rfl⟩
  rw [e] at hr ⊢
  unfold loop
  rw [hr]
  cases r with
  | fail s' => rfl
  | ok s' u => cases hn

/-- **C48** (finding): after block attributes, such a line ends the document silently, whatever follows: the fragment matches
without an element. -/
theorem silently_dropped (hS : Follows S known) (hP : C45.ChecksProgress S) (s : σ) (x : Text) :
    (∃ n s', run grammar S n (.rule R.DocumentFragment) ("[[intro]]\n\u00a0\n".toList ++ x) s
      ("[[intro]]\n\u00a0\n".toList ++ x) = some (.ok s' ("\u00a0\n".toList ++ x))) ∧
    (∀ st s r, Eval grammar S element st s ("\u00a0\n".toList ++ x) r → ∃ s', r = .fail s') := by
  constructor
  · have h : runO grammar known 80 (.rule R.DocumentFragment) "[[intro]]\n\u00a0\n".toList
      "[[intro]]\n\u00a0\n".toList = some [.at "\u00a0\n".toList] := by decide +kernel
    obtain ⟨n, r, hr, _⟩ := C45.parse_ends S hP R.DocumentFragment s ("[[intro]]\n\u00a0\n".toList ++ x)
    have hn := yields_of_prefix hS x h _ _ _ (eval_of_run hr)
    cases r with
    | fail s' => cases hn
    | ok s' u => cases hn; exact ⟨_, _, hr⟩
  · intro st s r hr
    have hall : ∀ i ∈ [R.ImageBlock, R.UserMacroBlock, R.ShortcutParagraph, R.AttributeDeclaration, R.AttributeReset, R.BlankLine,
        R.DocumentHeader, R.Section, R.DelimitedBlock, R.ThematicBreak, R.ListElements, R.Table, R.SinglelineComment, R.FrontMatter,
        R.Paragraph], runO grammar known 80 (.rule i) "\u00a0\n".toList "\u00a0\n".toList = some [.fail] := by decide +kernel
    have hnev := fun i hi => never_of_prefix hS x (hall i hi)
    have : Never grammar S element ("\u00a0\n".toList ++ x) := by
      unfold element
      refine yields_alt_right (hnev _ (by decide)) (yields_alt_right (hnev _ (by decide)) (yields_alt_right (hnev _ (by decide))
        (yields_alt_right (hnev _ (by decide)) (yields_alt_right (hnev _ (by decide)) (yields_alt_right (hnev _ (by decide))
        (yields_alt_right (hnev _ (by decide)) (yields_alt_right (hnev _ (by decide)) (yields_alt_right (hnev _ (by decide))
        (yields_alt_right (hnev _ (by decide)) (yields_alt_right (hnev _ (by decide)) (yields_alt_right (hnev _ (by decide))
        (yields_alt_right (hnev _ (by decide)) (yields_alt_right (hnev _ (by decide)) (hnev _ (by decide)))))))))))))))
    have hn := this st s r hr
    cases r with
    | fail s' => exact ⟨_, rfl⟩
    | ok s' u => cases hn

/-- Such code exists. -/
def knownSem : Sem Unit where
  letter c := c.isAlpha
  number c := c.isDigit
  pred id s st t := ((known id (st.take (st.length - t.length))).getD false, s)
  state _ s _ _ := s
  act _ s _ _ := s
  restore saved _ := saved

example : Follows knownSem known where
  pred id s p t b h := by
    show (known id ((p ++ t).take ((p ++ t).length - t.length))).getD false = b
    rw [List.length_append, Nat.add_sub_cancel, List.take_left' rfl, h]; rfl
  letter _ _ := rfl
  number _ _ := rfl

example : C45.ChecksProgress knownSem := by
  intro id hid s st t h
  have h : (known id (st.take (st.length - t.length))).getD false = true := h
  rcases List.mem_cons.mp hid with rfl | hid
  · have : (!(st.take (st.length - t.length)).isEmpty) = true := h
    rcases Nat.lt_or_ge t.length st.length with hl | hl
    · exact hl
    · rw [Nat.sub_eq_zero_of_le hl] at this
      cases this
  · have : known id (st.take (st.length - t.length)) = none := by
      simp only [List.mem_cons, List.not_mem_nil, or_false] at hid
      rcases hid with rfl | rfl | rfl <;> rfl
    rw [this] at h
    cases h

end C48
end Verif
