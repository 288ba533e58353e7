import Verif.Model.Actions
import Verif.Model.FragmentValues
import Verif.Spec.Paragraphs
import Verif.Proofs.Exactly
import Verif.Proofs.Lines
import Verif.Proofs.Dead
import Verif.Props.FragmentLoop

/-!
# C59 — Paragraphs are kept line by line

A document of paragraphs separated by blank lines is split into exactly these paragraphs, each with its own lines, in order.
-/
namespace Verif
namespace C59
open Peg Grammar Actions Paragraphs FragmentLoop
open Walk (Any)

/-- The end of a line, `z`, and what follows: an end of line, or the end of the text. -/
inductive Cut : Text → Text → Prop where
  | line {r : Text} : Cut ('\n' :: r) r
  | eof : Cut [] []

variable {σ : Type} {S : Sem σ} {A : Peg.Code σ} {t r z : Text}

/-- `strings.Contains(l, ":: ")` or `strings.HasSuffix(l, "::")` (parser.peg:1749-1752). -/
def hasLabel (l : Text) : Bool := decide ([':', ':', ' '] <:+: l) || decide ([':', ':'] <:+ l)

/-- What is assumed of the code of the grammar: the predicates of C48, the one on the first line of a paragraph without style (298, parser.peg:1748-1753),
and the classes `\pL` and `\pN` on ASCII. -/
structure Code (S : Sem σ) : Prop extends C48.Code S where
  label : ∀ s l z r, Cut z r → (∀ c ∈ l, isEol c = false) → (∀ c ∈ l.head?, isBlank c = false) → (∀ p ∈ C48.admonitions, ¬ p <+: l) →
    (S.pred 298 s (l ++ z) r).1 = !hasLabel (trimRight l)
  ascii : ∀ c, c.toNat < 128 → S.letter c = c.isAlpha ∧ S.number c = c.isDigit

/-- A letter or a number. -/
def alnum (S : Sem σ) (c : Char) : Bool := S.letter c || S.number c

theorem alnum_not (hS : Code S) {c : Char} (h : alnum S c = true) {d : Char} (hd : d.toNat < 128) (h0 : (d.isAlpha || d.isDigit) = false) :
    c ≠ d := by
  rintro rfl
  have := hS.ascii c hd
  unfold alnum at h
  rw [this.1, this.2, h0] at h
  cases h

theorem not_mem_of_all {F : List Char} {c : Char} (h : ∀ d ∈ F, c ≠ d) : c ∉ F := fun hc => h c hc rfl

theorem alnum_not_mem (hS : Code S) {c : Char} (h : alnum S c = true) (F : List Char)
    (hF : F.all (fun d => decide (d.toNat < 128) && !(d.isAlpha || d.isDigit)) = true) : c ∉ F := by
  refine not_mem_of_all (fun d hd => ?_)
  have := List.all_eq_true.mp hF d hd
  rw [Bool.and_eq_true] at this
  exact alnum_not hS h (of_decide_eq_true this.1) (by simpa using this.2)

theorem alnum_cls (c : Char) : (Cls.mk false [] [] true true).has S.letter S.number c = alnum S c := by
  simp [Cls.has, alnum]

/-! ### Lines -/

theorem full_drop (hz : Cut z r) {l : Text} (h : ∀ c ∈ l, isEol c = false) : (l ++ z).dropWhile (fun c => !isEol c) = z := by
  rw [List.dropWhile_append_of_pos (fun c hc => by simp [h c hc])]
  cases hz <;> rfl

theorem eol_newline : eol ('\n' :: r) = some r := rfl

theorem trimRight_full {l : Line} (h : l.Ok) : trimRight l.full = l.text := by
  unfold trimRight Line.full
  rw [List.reverse_append, List.dropWhile_append_of_pos (fun c hc => ?_)]
  · cases hr : l.text.reverse with
    | nil => rw [List.reverse_eq_nil_iff.mp hr]; rfl
    | cons c x =>
      have ht : l.text = x.reverse ++ [c] := by rw [← List.reverse_reverse l.text, hr, List.reverse_cons]
      have hc : isBlank c = false := h.last c (by rw [ht, List.getLast?_concat])
      have hc' : (c == ' ' || c == '\t') = false := by unfold isBlank at hc; rw [Bool.or_comm]; exact hc
      rw [List.dropWhile_cons_of_neg (by rw [hc']; decide), ht, List.reverse_cons]
  · have := h.trail c (List.mem_reverse.mp hc)
    unfold isBlank at this; rw [Bool.or_comm]; exact this

theorem full_visible {l : Line} (h : l.Ok) : C48.Visible l.full := by
  obtain ⟨c, hc, hs⟩ := h.visible
  exact ⟨c, List.mem_append_left _ hc, hs⟩

theorem full_cons {l : Line} (h : l.Ok) : ∃ c x, l.full = c :: x := by
  obtain ⟨c, hc, _⟩ := full_visible h
  cases hf : l.full with
  | nil => rw [hf] at hc; cases hc
  | cons d x => exact ⟨d, x, rfl⟩

theorem yields_chars (hz : Cut z r) {l : Line} (h : l.Ok) : Yields grammar S (.plus (.cls ⟨true, ['\r', '\n'], [], false, false⟩)) (l.full ++ z)
    (some z) := by
  have e : (fun c => !isEol c) = (Cls.mk true ['\r', '\n'] [] false false).has S.letter S.number := by
    funext x; rw [has_line]
  have hd := full_drop hz h.one
  obtain ⟨c, x, hx⟩ := full_cons h
  have hc : isEol c = false := h.one c (by rw [hx]; exact List.mem_cons_self)
  rw [hx] at hd ⊢
  rw [List.cons_append, List.dropWhile_cons_of_pos (by simp [hc]), e] at hd
  rw [List.cons_append]
  conv => arg 5; rw [← hd]
  exact yields_plus_step (yields_cls (by rw [has_line, hc]; rfl)) (yields_star_cls _)

/-- A line of a paragraph is kept without the spaces at its end. -/
theorem span_append (w u : Text) : span (w ++ u) u = w := by simp [span]

theorem rawLine (hS : Code S) (hA : Obeys A) (hz : Cut z r) {l : Line} (h : l.Ok) {st : Text} :
    Exactly grammar S A st (.rule R.ParagraphRawLine) (l.full ++ z) [.raw l.text] r := by
  have h1 : ∀ st, Exactly grammar S A st (.rule R.ManyChars) (l.full ++ z) [.text l.full] z := fun st =>
    exactly_rule (exactly_of_yields (yields_chars hz h) (fun s v => by
      rw [span_append]; exact hA 446 s v _ _ rfl))
  have h2 : Exactly grammar S A (l.full ++ z) (.pred 303) z [.nil] z := exactly_pred (fun s => by
    rw [hS.visible s l.full z]
    obtain ⟨c, hc, hs⟩ := full_visible h
    exact List.any_eq_true.mpr ⟨c, hc, by simp [hs]⟩)
  have h3 : ∃ v, Exactly grammar S A (l.full ++ z) (.rule R.EOL) z [v] r := by
    cases hz with
    | line =>
      exact ⟨.text ['\n'], exactly_rule (exactly_alt_left (exactly_rule (exactly_of_yields (yields_alt_left (yields_lit (l := ['\n'])))
        (fun s v => by
        have : span ('\n' :: r) r = ['\n'] := span_append ['\n'] r
        rw [this]; exact hA 459 s v _ _ rfl))))⟩
    | eof => exact ⟨.nil, exactly_rule (exactly_alt_right yields_Newline (exactly_rule (exactly_notP yields_any_nil)))⟩
  obtain ⟨v3, h3⟩ := h3
  refine exactly_rule (exactly_act (exactly_scope (exactly_seq (h1 _) (exactly_seq h2 h3))) (fun s => ?_))
  rw [← trimRight_full h]
  exact hA 304 s _ _ _ rfl

/-! ### The lines that follow -/

/-- What follows a paragraph: nothing, or a blank line. -/
def Ends (t : Text) : Prop := t = [] ∨ ∃ w z r, t = w ++ z ∧ Cut z r ∧ t ≠ [] ∧ ∀ c ∈ w, isBlank c = true

theorem blank_line (hz : Cut z r) {w : Text} (hn : w ++ z ≠ []) (hw : ∀ c ∈ w, isBlank c = true) : Yields grammar S (.rule R.BlankLine) (w ++ z) (some r) := by
  refine yields_BlankLine.to ?_
  have e : (w ++ z).dropWhile isBlank = z := by
    rw [List.dropWhile_append_of_pos hw]; cases hz <;> rfl
  cases hc : w ++ z with
  | nil => exact absurd hc hn
  | cons c x =>
    show eol (List.dropWhile isBlank (c :: x)) = _
    rw [← hc, e]
    cases hz <;> rfl

/-- The lines after the first one. -/
def others : Exp := .act 299 (.scope (.seq (.rule R.NotEOF) (.seq (.notP (.rule R.BlankLine)) (.seq
    (.notP (.rule R.BlockAttributes)) (.seq (.notP (.rule R.BlockDelimiter)) (.seq (.notP (.rule R.ListContinuationMarker))
    (.alt (.rule R.SinglelineComment) (.rule R.ParagraphRawLine))))))))

theorem never_others (h : Ends t) : Never grammar S others t := by
  refine yields_act (yields_scope ?_)
  rcases h with rfl | ⟨w, z, r, rfl, hz, hn, hw⟩
  · exact never_seq never_NotEOF
  · obtain ⟨c, x, e⟩ : ∃ c x, w ++ z = c :: x := by
      cases hc : w ++ z with
      | nil => exact absurd hc hn
      | cons c x => exact ⟨_, _, rfl⟩
    have hb := (blank_line (S := S) hz hn hw).sure
    rw [e] at hb ⊢
    exact yields_seq yields_NotEOF (never_seq (never_notP hb))

theorem never_blank (hz : Cut z r) {l : Line} (h : l.Ok) : Never grammar S (.rule R.BlankLine) (l.full ++ z) := by
  refine yields_BlankLine.to ?_
  obtain ⟨c, x, hx⟩ := full_cons h
  have hf : C48.firstLine (l.full ++ z) = l.full := by
    rw [C48.firstLine_append h.one]
    cases hz <;> exact List.append_nil _
  have he := eol_blanks (l.full ++ z)
  rw [hf, if_neg] at he
  · rw [hx] at he ⊢
    exact he
  · intro hall
    obtain ⟨d, hd, hs⟩ := full_visible h
    have := List.all_eq_true.mp hall d hd
    simp only [isBlank, Bool.or_eq_true, beq_iff_eq] at this
    rcases this with rfl | rfl <;> exact absurd hs (by decide)

theorem exactly_NotEOF {c : Char} {st : Text} : Exactly grammar S A st (.rule R.NotEOF) (c :: t) [.nil] (c :: t) :=
  exactly_rule (exactly_andP yields_any_cons.sure)

theorem otherLine (hS : Code S) (hA : Obeys A) (hz : Cut z r) {l : Line} (h : l.Ok) (hl : Continues l) {st : Text} :
    Exactly grammar S A st others (l.full ++ z) [.raw l.text] r := by
  obtain ⟨c, x, hx⟩ := full_cons h
  have hc := hl c x hx
  have e : l.full ++ z = c :: (x ++ z) := by rw [hx]; rfl
  have h1 := never_blank (S := S) hz h
  have h2 := rawLine hS hA hz h (st := l.full ++ z)
  unfold others
  rw [e] at h1 h2 ⊢
  have never : ∀ e, starts grammar openers 24 e = true → Never grammar S e (c :: (x ++ z)) := fun e he => starts_never hc 24 e he
  exact exactly_act (exactly_scope (exactly_seq exactly_NotEOF (exactly_seq (exactly_notP h1) (exactly_seq
    (exactly_notP (never _ (by decide))) (exactly_seq (exactly_notP (never _ (by decide))) (exactly_seq
    (exactly_notP (never _ (by decide))) (exactly_alt_right (never _ (by decide)) h2))))))) (fun s => hA 299 s _ _ _ rfl)

/-- The lines that follow, of which the last one ends with `z`, and the rest `t` of the text. -/
def after (z t : Text) : List Line → Text
  | [] => t
  | l :: ls => joinLF ((l :: ls).map Line.full) ++ z

theorem after_cons (hz : Cut z t) (l : Line) (ls : List Line) : ∃ z', Cut z' (after z t ls) ∧ after z t (l :: ls) = l.full ++ z' := by
  cases ls with
  | nil => exact ⟨z, hz, rfl⟩
  | cons l' ls => exact ⟨_, .line, by simp [after, joinLF]⟩

theorem otherLines (hS : Code S) (hA : Obeys A) {st : Text} (hz : Cut z t) (ht : Never grammar S others t) : ∀ {ls : List Line}, (∀ l ∈ ls, l.Ok ∧ Continues l) →
    Exactly grammar S A st (.star others) (after z t ls) [.slice (ls.map (fun l => .raw l.text))] t
  | [], _ => exactly_star_stop ht
  | l :: ls, h => by
    obtain ⟨z', hz', e⟩ := after_cons hz l ls
    have h1 := otherLine hS hA hz' (h l List.mem_cons_self).1 (h l List.mem_cons_self).2 (st := st)
    have h2 := otherLines hS hA (st := st) hz ht (fun l hl => h l (List.mem_cons_of_mem _ hl))
    have := exactly_star_step h1 h2
    rw [e]
    simpa using this

/-! ### Paragraphs -/

/-- A prefix on one line is a prefix of the line. -/
theorem prefix_line (hz : Cut z r) {p l : Text} (hp : ∀ c ∈ p, isEol c = false) (h : p <+: l ++ z) : p <+: l := by
  rcases List.prefix_or_prefix_of_prefix h (List.prefix_append l z) with h' | ⟨x, rfl⟩
  · exact h'
  · cases x with
    | nil => rw [List.append_nil]; exact List.prefix_refl _
    | cons d x =>
      obtain ⟨y, hy⟩ := h
      rw [List.append_assoc] at hy
      have := List.append_cancel_left hy
      cases hz <;> cases this
      exact absurd (hp '\n' (by simp)) (by decide)

theorem never_lit {l : List Char} (hl : '\uFFFD' ∉ l) (h : ¬ l <+: t) : Never grammar S (.lit l) t := by
  refine yields_lit.to ?_
  cases hm : matchLit l t with
  | none => rfl
  | some u => exact absurd ⟨u, (matchLit_prefix l t u hl hm).symm⟩ h

theorem never_style (hS : Code S) (hz : Cut z r) {l : Text} (hl : ∃ c x, l = c :: x ∧ alnum S c = true) (ha : ∀ p ∈ C48.admonitions, ¬ p <+: l) :
    Never grammar S (.rule R.ParagraphStyle) (l ++ z) := by
  have hp : ∀ p ∈ C48.admonitions, ∀ i, Never grammar S (.act i (.lit p)) (l ++ z) := by
    intro p hp i
    have h1 : ∀ p ∈ C48.admonitions, '\uFFFD' ∉ p := by decide
    exact yields_act (never_lit (h1 p hp) (fun h => ha p hp (prefix_line hz (C48.admonitions_inline p hp) h)))
  have hs : Never grammar S (.rule R.Spaces) (l ++ z) := by
    obtain ⟨c, x, rfl, hc⟩ := hl
    refine yields_rule (yields_act (never_plus (yields_cls_no ?_)))
    rw [has_blank]
    have := alnum_not_mem hS hc ['\t', ' '] (by decide)
    simp only [List.mem_cons, List.not_mem_nil, or_false, not_or] at this
    simp [isBlank, this.1, this.2]
  have key : Never grammar S (.alt (.act 291 (.lit ['T', 'I', 'P', ':', ' '])) (.alt (.act 292 (.lit
    ['N', 'O', 'T', 'E', ':', ' '])) (.alt (.act 293 (.lit ['I', 'M', 'P', 'O', 'R', 'T', 'A', 'N', 'T',
    ':', ' '])) (.alt (.act 294 (.lit ['W', 'A', 'R', 'N', 'I', 'N', 'G', ':', ' '])) (.alt (.act 295 (.lit
    ['C', 'A', 'U', 'T', 'I', 'O', 'N', ':', ' '])) (.act 296 (.andP (.rule R.Spaces)))))))) (l ++ z) :=
    yields_alt_right (hp _ (by decide) _) (yields_alt_right (hp _ (by decide) _) (yields_alt_right (hp _ (by decide) _)
      (yields_alt_right (hp _ (by decide) _) (yields_alt_right (hp _ (by decide) _) (yields_act (never_andP hs))))))
  refine yields_rule (yields_act (yields_scope ?_))
  intro st s x hr
  rcases eval_seq.mp hr with ⟨_, _, rfl⟩ | ⟨s1, u, h1, h2⟩
  · rfl
  · rw [still_rest rfl h1] at h2
    exact key _ _ _ h2

theorem kept_eq : ∀ ls : List Line, appendNewlines (ls.map (fun l => .raw l.text)) = kept ls
  | [] => rfl
  | [_] => rfl
  | l :: l' :: ls => by
    have ih := kept_eq (l' :: ls)
    show .raw (l.text ++ ['\n']) :: appendNewlines ((l' :: ls).map (fun l => .raw l.text)) = _
    rw [ih]; rfl

theorem paragraph (hS : Code S) (hA : Obeys A) {l : Line} {ls : List Line} {st : Text} (h : l.Ok) (ho : Opens (alnum S) l)
    (hl : ∀ x ∈ ls, x.Ok ∧ Continues x) (hz : Cut z t) (ht : Never grammar S others t) :
    Exactly grammar S A st (.rule R.ShortcutParagraph) (after z t (l :: ls)) [.paragraph [] (kept (l :: ls))] t := by
  have hrest : ∀ st, Exactly grammar S A st (.star others) (after z t ls) [.slice (ls.map (fun l => .raw l.text))] t := fun st =>
    otherLines hS hA hz ht hl
  obtain ⟨z', hz', e⟩ := after_cons hz l ls
  rw [e]
  clear e
  generalize after z t ls = r at hz' hrest
  clear hz
  revert z'
  intro z hz
  obtain ⟨c, x, hx, hc, hlist⟩ := ho.first
  have hstyle := never_style hS hz ⟨c, x, hx, hc⟩ ho.noAdmonition
  have hlook : Sure grammar S (.scope (.seq (.rule R.Alphanum) (.notP (.scope (.seq (.alt (.lit ['.'])
    (.lit [')'])) (.rule R.Spaces)))))) (l.full ++ z) := by
    rw [hx, List.cons_append]
    refine (yields_scope (yields_seq (u := x ++ z) (o := some (x ++ z)) (yields_rule (yields_cls ?_)) (yields_notP (yields_scope ?_)))).sure
    · rw [alnum_cls]; exact hc
    · intro st s y hy
      rcases eval_seq.mp hy with ⟨_, _, rfl⟩ | ⟨s1, u, h1, h2⟩
      · rfl
      have hu : ∃ d, (d = '.' ∨ d = ')') ∧ x ++ z = d :: u := by
        have lit : ∀ d, d ≠ '\uFFFD' → ∀ st s s1, Eval grammar S (.lit [d]) st s (x ++ z) (.ok s1 u) → x ++ z = d :: u := by
          intro d hd st s s1 h
          have := eval_lit.mp h
          cases hm : matchLit [d] (x ++ z) with
          | none => rw [hm] at this; cases this
          | some w => rw [hm] at this; cases this; exact matchLit_prefix [d] _ _ (by simpa using hd.symm) hm
        rcases eval_alt.mp h1 with ⟨_, _, h3⟩ | ⟨_, _, h3, h4⟩
        · exact ⟨_, .inr rfl, lit _ (by decide) _ _ _ h3⟩
        · cases h4; exact ⟨_, .inl rfl, lit _ (by decide) _ _ _ h3⟩
      obtain ⟨d, hd, hu⟩ := hu
      refine yields_rule (yields_act (never_plus ?_)) _ _ _ h2
      cases u with
      | nil => exact yields_cls_nil
      | cons b u' =>
        refine yields_cls_no ?_
        rw [has_blank]
        cases hb : isBlank b with
        | false => rfl
        | true =>
          refine absurd (prefix_line hz ?_ ⟨u', hu.symm⟩) (hlist d b hb hd)
          intro q hq
          simp only [List.mem_cons, List.not_mem_nil, or_false] at hq
          rcases hq with rfl | rfl
          · rcases hd with rfl | rfl <;> rfl
          · simp only [isBlank, Bool.or_eq_true, beq_iff_eq] at hb
            rcases hb with rfl | rfl <;> rfl
  have hpred : ∀ s, (S.pred 298 s (l.full ++ z) r).1 = true := by
    intro s
    rw [hS.label s l.full z r hz h.one (fun d hd => ?_) ho.noAdmonition]
    · rw [trimRight_full h]
      have hno : ¬ [':', ':'] <:+: l.text := fun hi => ho.noLabel (hi.trans (List.prefix_append _ _).isInfix)
      have h1 : ¬ [':', ':', ' '] <:+: l.text := fun hi => hno (List.IsInfix.trans ⟨[], [' '], rfl⟩ hi)
      have h2 : ¬ [':', ':'] <:+ l.text := fun hi => hno hi.isInfix
      simp [hasLabel, h1, h2]
    · rw [hx] at hd
      cases hd
      have := alnum_not_mem hS hc ['\t', ' '] (by decide)
      simp only [List.mem_cons, List.not_mem_nil, or_false, not_or] at this
      simp [isBlank, this.1, this.2]
  refine exactly_rule (exactly_act (exactly_scope (exactly_seq (exactly_andP hlook) (exactly_seq (exactly_opt_never hstyle)
    (exactly_seq (rawLine hS hA hz h) (exactly_seq (exactly_pred hpred) (hrest _)))))) (fun s => ?_))
  refine hA 300 s _ _ _ ?_
  show some (Any.paragraph [] (appendNewlines (.raw l.text :: ls.map (fun l => .raw l.text)))) = _
  rw [← kept_eq]; rfl

/-! ### Fragments -/

theorem fragment (hA : Obeys A) (hS : Code S) {c : Char} {x u : Text} {v : Any} (hattr : Never grammar S (.rule R.BlockAttributes) (c :: x))
    (hlt : u.length < (c :: x).length) (he : ∀ st, Exactly grammar S A st C48.element (c :: x) [v] u) {st : Text} :
    Exactly grammar S A st (.rule R.DocumentFragment) (c :: x) [v] u := by
  have h := exactly_rule (G := grammar) (S := S) (A := A) (st := st) (i := R.DocumentFragment) (t := c :: x) (v := [v]) (u := u)
  refine h ?_
  rw [C48.fragment_rule]
  exact exactly_act (exactly_scope (exactly_seq exactly_NotEOF (exactly_seq (exactly_opt_never hattr) (exactly_seq exactly_state
    (exactly_seq (exactly_opt (he _)) (exactly_pred (fun s => (hS.fragment s _ _).mpr hlt))))))) (fun s => hA 48 s _ _ _ rfl)

/-- The characters of the names of user macros. -/
def word (S : Sem σ) (c : Char) : Bool := (Cls.mk false ['_', '-'] [] true true).has S.letter S.number c

theorem word_inline (hS : Code S) {c : Char} (h : word S c = true) : isEol c = false := by
  cases hc : isEol c with
  | false => rfl
  | true =>
    simp only [isEol, Bool.or_eq_true, beq_iff_eq] at hc
    rcases hc with rfl | rfl
    · have := hS.ascii '\n' (by decide)
      simp [word, Cls.has, this.1, this.2] at h
    · have := hS.ascii '\r' (by decide)
      simp [word, Cls.has, this.1, this.2] at h

theorem mem_takeWhile {p : Char → Bool} : ∀ {t : Text} {c : Char}, c ∈ t.takeWhile p → p c = true
  | x :: t, c, h => by
    cases hx : p x with
    | false => rw [List.takeWhile_cons_of_neg (by simp [hx])] at h; cases h
    | true =>
      rw [List.takeWhile_cons_of_pos hx] at h
      rcases List.mem_cons.mp h with rfl | h
      · exact hx
      · exact mem_takeWhile h

/-- A paragraph is a fragment. -/
theorem paraFragment (hS : Code S) (hA : Obeys A) {l : Line} {ls : List Line} {st : Text} (h : l.Ok) (ho : Opens (alnum S) l)
    (hl : ∀ x ∈ ls, x.Ok ∧ Continues x) (hz : Cut z t) (ht : Never grammar S others t) :
    Exactly grammar S A st (.rule R.DocumentFragment) (joinLF (Block.para l ls).lines ++ z) [(Block.para l ls).element] t := by
  obtain ⟨c, x, hx, hc, hlist⟩ := ho.first
  have hp := fun st => paragraph (st := st) hS hA h ho hl hz ht
  show Exactly grammar S A st (.rule R.DocumentFragment) (after z t (l :: ls)) [_] t
  have hlen : t.length < (after z t (l :: ls)).length := by
    have hpos : 0 < (joinLF ((l :: ls).map Line.full)).length := by
      cases ls <;> simp [joinLF, hx]
    show t.length < (joinLF ((l :: ls).map Line.full) ++ z).length
    rw [List.length_append]
    cases hz
    · simp only [List.length_cons]; omega
    · simpa using hpos
  obtain ⟨z', hz', e⟩ := after_cons hz l ls
  generalize after z t ls = q at hz'
  rw [hx] at e
  change _ = c :: (x ++ z') at e
  rw [e] at hp hlen ⊢
  clear e
  clear hz
  revert z'
  intro z hlen hp hz
  have hattr : Never grammar S (.rule R.BlockAttributes) (c :: (x ++ z)) :=
    starts_never (F := ['[', '.']) (alnum_not_mem hS hc _ (by decide)) 24 _ (by decide)
  refine fragment hA hS hattr hlen (fun st => exactly_alt_right ?_ (exactly_alt_right ?_ (exactly_alt_left (hp st))))
  · -- `image::`
    refine yields_rule (yields_act (yields_scope (never_seq (never_lit (by decide) (fun hi => ?_)))))
    rw [show c :: (x ++ z) = l.full ++ z by rw [hx]; rfl] at hi
    exact ho.noLabel (List.IsInfix.trans ⟨['i', 'm', 'a', 'g', 'e'], [], rfl⟩ (prefix_line hz (by decide) hi).isInfix)
  · -- a user macro
    have hname : Yields grammar S (.rule R.UserMacroName) (c :: (x ++ z)) (some ((x ++ z).dropWhile (word S))) :=
      yields_rule (yields_act (yields_plus_step (yields_cls (by
        show word S c = true
        unfold word Cls.has
        unfold alnum at hc
        simp only [Bool.false_xor, Bool.true_and, Bool.or_assoc]
        rw [hc]; simp)) (yields_star_cls _)))
    refine yields_rule (yields_act (yields_scope (yields_seq hname ?_)))
    intro st s y hy
    rcases eval_seq.mp hy with ⟨_, _, rfl⟩ | ⟨s1, u, h1, h2⟩
    · rfl
    rw [still_rest rfl h1] at h2
    refine never_seq (never_lit (by decide) (fun hi => ?_)) _ _ _ h2
    have hsplit : (x ++ z).takeWhile (word S) ++ (x ++ z).dropWhile (word S) = x ++ z :=
      List.takeWhile_append_dropWhile
    obtain ⟨w, hw⟩ := hi
    have hpre : (x ++ z).takeWhile (word S) ++ [':', ':'] <+: x ++ z := ⟨w, by rw [List.append_assoc, hw, hsplit]⟩
    have hline := prefix_line hz (l := x) (fun d hd => ?_) hpre
    · refine ho.noLabel (List.IsInfix.trans ?_ (List.IsInfix.trans hline.isInfix ?_))
      · exact (List.suffix_append _ _).isInfix
      · rw [hx]; exact (List.suffix_cons c x).isInfix
    · rcases List.mem_append.mp hd with hd | hd
      · exact word_inline hS (mem_takeWhile hd)
      · simp only [List.mem_cons, List.not_mem_nil, or_false, or_self] at hd
        rw [hd]; rfl

/-- A blank line is a fragment. -/
theorem blankFragment (hS : Code S) (hA : Obeys A) {w : Text} {st : Text} (hw : ∀ c ∈ w, isBlank c = true) (hz : Cut z t) (hn : w ++ z ≠ []) :
    Exactly grammar S A st (.rule R.DocumentFragment) (joinLF (Block.blank w).lines ++ z) [(Block.blank w).element] t := by
  show Exactly grammar S A st (.rule R.DocumentFragment) (w ++ z) _ t
  have hb := blank_line (S := S) hz hn hw
  obtain ⟨c, x, hx, hc⟩ : ∃ c x, w ++ z = c :: x ∧ c ∈ ['\t', ' ', '\n'] := by
    cases w with
    | nil => cases hz with
      | line => exact ⟨_, _, rfl, by decide⟩
      | eof => exact absurd rfl hn
    | cons c w =>
      refine ⟨c, _, rfl, ?_⟩
      have := hw c List.mem_cons_self
      simp only [isBlank, Bool.or_eq_true, beq_iff_eq] at this
      rcases this with rfl | rfl <;> decide
  have hlen : t.length < (w ++ z).length := by
    have := List.length_pos_iff.mpr hn
    cases hz
    · simp; omega
    · exact this
  rw [hx] at hb hlen ⊢
  have hno : S.letter c = false ∧ S.number c = false := by
    simp only [List.mem_cons, List.not_mem_nil, or_false] at hc
    rcases hc with rfl | rfl | rfl <;> exact ⟨(hS.ascii _ (by decide)).1, (hS.ascii _ (by decide)).2⟩
  have never : ∀ e, starts grammar ['[', '.', 'i', ':'] 24 e = true → Never grammar S e (c :: x) := fun e he =>
    starts_never (F := ['[', '.', 'i', ':']) (fun hm => by
      have : ∀ c ∈ ['\t', ' ', '\n'], c ∉ ['[', '.', 'i', ':'] := by decide
      exact this c hc hm) 24 _ he
  refine fragment hA hS (never _ (by decide)) hlen (fun st => exactly_alt_right (never _ (by decide)) (exactly_alt_right ?_ (exactly_alt_right ?_
    (exactly_alt_right (never _ (by decide)) (exactly_alt_right (never _ (by decide)) (exactly_alt_left (exactly_rule ?_)))))))
  · refine yields_rule (yields_act (yields_scope (never_seq (yields_rule (yields_act (never_plus (yields_cls_no ?_)))))))
    have : c ≠ '_' ∧ c ≠ '-' := by
      simp only [List.mem_cons, List.not_mem_nil, or_false] at hc
      rcases hc with rfl | rfl | rfl <;> decide
    simp [Cls.has, hno.1, hno.2, this.1, this.2]
  · refine yields_rule (yields_act (yields_scope (never_seq (never_andP (yields_scope (never_seq (yields_rule (yields_cls_no ?_))))))))
    simp [Cls.has, hno.1, hno.2]
  · refine exactly_of_yields (id := 111) ?_ (fun s v => hA 111 s v _ _ rfl)
    have hd : (c :: x).dropWhile isBlank = z := by
      rw [← hx, List.dropWhile_append_of_pos hw]; cases hz <;> rfl
    have he : eol z = some t := by cases hz <;> rfl
    have hy := yields_scope (yields_seq (yields_NotEOF (S := S) (c := c) (t := x)) (yields_seq yields_spaces (yields_EOL (S := S))))
    rw [hd, he] at hy
    exact hy

/-! ### Documents -/

/-- The document, with `z` at the end of the last line. -/
def written (z : Text) : List Block → Text
  | [] => []
  | [b] => joinLF b.lines ++ z
  | b :: bs => joinLF b.lines ++ '\n' :: written z bs

/-- The last line is not blank, or has an end. -/
def Closed (z : Text) (bs : List Block) : Prop := z = [] → bs.getLast? ≠ some (.blank [])

theorem closed_tail {b b' : Block} {bs : List Block} (h : Closed z (b :: b' :: bs)) : Closed z (b' :: bs) := fun hz hl => h hz (by
  rw [List.getLast?_cons_cons]; exact hl)

theorem written_cons (hz : Cut z []) (b : Block) (bs : List Block) (hc : Closed z (b :: bs)) : ∃ z', Cut z' (written z bs) ∧
    written z (b :: bs) = joinLF b.lines ++ z' ∧ (b = .blank [] → z' ≠ []) := by
  cases bs with
  | nil => exact ⟨z, hz, rfl, fun hb h => hc h (by rw [hb]; rfl)⟩
  | cons b' bs => exact ⟨_, .line, rfl, fun _ h => nomatch h⟩

theorem ends_written (hz : Cut z []) {alnum : Char → Bool} : ∀ {bs : List Block}, Good alnum bs → Closed z bs → (match bs with
    | .para _ _ :: _ => False
    | _ => True) → Ends (written z bs)
  | [], _, _, _ => .inl rfl
  | .blank w :: bs, h, hc, _ => by
    obtain ⟨z', hz', e, hn⟩ := written_cons hz _ bs hc
    refine .inr ⟨w, z', _, e, hz', ?_, h.1⟩
    rw [e]
    cases w with
    | nil => exact hn rfl
    | cons c w => exact fun h => nomatch h
  | .para _ _ :: _, _, _, h => h.elim

/-- One fragment for each block. -/
theorem blockFragment (hS : Code S) (hA : Obeys A) (hz : Cut z []) {b : Block} {bs : List Block} (h : Good (alnum S) (b :: bs))
    (hc : Closed z (b :: bs)) {st : Text} :
    Exactly grammar S A st (.rule R.DocumentFragment) (written z (b :: bs)) [b.element] (written z bs) := by
  obtain ⟨z', hz', e, hn⟩ := written_cons hz _ bs hc
  rw [e]
  have hc' : Closed z bs := by
    cases bs with
    | nil => exact fun _ h => nomatch h
    | cons b' bs => exact closed_tail hc
  cases b with
  | para l ls => exact paraFragment hS hA h.1 h.2.1 h.2.2.1 hz' (never_others (ends_written hz h.2.2.2.2 hc' h.2.2.2.1))
  | blank w =>
    refine blankFragment hS hA h.1 hz' ?_
    cases w with
    | nil => exact hn rfl
    | cons c w => exact fun h => nomatch h

theorem good_tail {alnum : Char → Bool} {b : Block} {bs : List Block} (h : Good alnum (b :: bs)) : Good alnum bs := by
  cases b with
  | para l ls => exact h.2.2.2.2
  | blank w => exact h.2

theorem element_single (b : Block) : elementsOf b.element = [b.element] := by cases b <;> rfl

theorem loop_written (hS : Code S) (hA : Obeys A) (failed : σ → Bool) {depth : Nat} (hz : Cut z []) :
    ∀ {rounds : Nat} {s : σ} {bs : List Block} {o : OutcomeV}, Good (alnum S) bs → Closed z bs →
      loopV S A failed depth rounds s (written z bs) = some o →
      o.stop = .reported ∨ o = ⟨bs.map (fun b => [b.element]), .endOfDocument, []⟩
  | 0, _, _, _, _, _, h => nomatch h
  | _ + 1, _, [], o, _, _, h => by cases h; exact .inr rfl
  | rounds + 1, s, b :: bs, o, hg, hc, h => by
    have hx := blockFragment hS hA hz hg hc (st := written z (b :: bs))
    have hc' : Closed z bs := by
      cases bs with
      | nil => exact fun _ h => nomatch h
      | cons b' bs => exact closed_tail hc
    obtain ⟨c, t, e⟩ : ∃ c t, written z (b :: bs) = c :: t := by
      have hne : written z (b :: bs) ≠ [] := by
        obtain ⟨z', hz', e, hn⟩ := written_cons hz _ bs hc
        rw [e]
        cases b with
        | blank w => cases w with
          | nil => exact hn rfl
          | cons c w => exact fun h => nomatch h
        | para l ls =>
          obtain ⟨c, x, hx, _⟩ := hg.2.1.first
          cases ls <;> simp [Block.lines, joinLF, ‹l.full = c :: x›]
      cases hw : written z (b :: bs) with
      | nil => exact absurd hw hne
      | cons c t => exact ⟨c, t, rfl⟩
    rw [e] at h hx
    unfold loopV at h
    cases hr : runV grammar S A depth (.rule R.DocumentFragment) (c :: t) s (c :: t) with
    | none => rw [hr] at h; cases h
    | some q =>
      rw [hr] at h
      have hp := hx s q ⟨depth, hr⟩
      cases q with
      | fail s' => cases hp
      | ok s' v u =>
        cases hp
        dsimp only at h
        split at h
        · cases h; exact .inl rfl
        · split at h
          · next heq => cases b <;> cases heq
          · cases hl : loopV S A failed depth rounds s' (written z bs) with
            | none => rw [hl] at h; cases h
            | some o' =>
              rw [hl] at h
              cases h
              rcases loop_written hS hA failed hz (good_tail hg) hc' hl with ih | rfl
              · exact .inl ih
              · refine .inr ?_
                rw [List.flatMap_cons, List.flatMap_nil, element_single]
                rfl

theorem joinLF_append : ∀ (a b : List Text), a ≠ [] → b ≠ [] → joinLF (a ++ b) = joinLF a ++ '\n' :: joinLF b
  | [], _, h, _ => absurd rfl h
  | [x], y :: b, _, _ => rfl
  | [_], [], _, h => absurd rfl h
  | x :: y :: a, b, _, h => by
    have := joinLF_append (y :: a) b (fun h => nomatch h) h
    show x ++ '\n' :: joinLF (y :: a ++ b) = _
    rw [this]
    simp [joinLF]

theorem lines_ne (b : Block) : b.lines ≠ [] := by cases b <;> exact fun h => nomatch h

theorem lines_cons_ne (b : Block) (bs : List Block) : lines (b :: bs) ≠ [] := by
  intro h
  exact lines_ne b (List.append_eq_nil_iff.mp (show b.lines ++ lines bs = [] from h)).1

theorem unlines_joinLF : ∀ (ls : List Text), ls ≠ [] → unlines ls = joinLF ls ++ ['\n']
  | [], h => absurd rfl h
  | [l], _ => by simp [unlines, joinLF]
  | l :: l' :: ls, _ => by
    have := unlines_joinLF (l' :: ls) (fun h => nomatch h)
    show l ++ ['\n'] ++ unlines (l' :: ls) = _
    rw [this]
    simp [joinLF]

theorem written_eq (z : Text) : ∀ (bs : List Block), bs ≠ [] → written z bs = joinLF (lines bs) ++ z
  | [], h => absurd rfl h
  | [b], _ => by
    show _ = joinLF (b.lines ++ []) ++ z
    rw [List.append_nil]
    rfl
  | b :: b' :: bs, _ => by
    have ih := written_eq z (b' :: bs) (fun h => nomatch h)
    show joinLF b.lines ++ '\n' :: written z (b' :: bs) = joinLF (b.lines ++ lines (b' :: bs)) ++ z
    rw [ih, joinLF_append _ _ (lines_ne b) (lines_cons_ne b' bs)]
    simp

theorem written_source (bs : List Block) : written ['\n'] bs = source bs := by
  cases bs with
  | nil => rfl
  | cons b bs => rw [written_eq _ (b :: bs) (fun h => nomatch h)]; exact (unlines_joinLF _ (lines_cons_ne b bs)).symm

theorem good_dropLast {alnum : Char → Bool} : ∀ {bs : List Block}, Good alnum bs → Good alnum bs.dropLast
  | [], h => h
  | [_], _ => trivial
  | .blank w :: b :: bs, h => ⟨h.1, good_dropLast (bs := b :: bs) h.2⟩
  | .para l ls :: b :: bs, h => by
    refine ⟨h.1, h.2.1, h.2.2.1, ?_, good_dropLast (bs := b :: bs) h.2.2.2.2⟩
    have h4 := h.2.2.2.1
    cases bs with
    | nil => trivial
    | cons b' bs => cases b with
      | blank w => trivial
      | para l ls => exact h4

theorem trimmed_good {alnum : Char → Bool} {bs : List Block} (h : Good alnum bs) : Good alnum (trimmed bs) := by
  unfold trimmed
  split
  · exact good_dropLast h
  · exact h

/-- Without the last end of line: how it looks, for the last blank line or without it. -/
theorem joined_written (bs : List Block) : ∃ z, Cut z [] ∧ joinLF (lines bs) = written z (trimmed bs) ∧ Closed z (trimmed bs) := by
  unfold trimmed
  split
  · next h =>
    obtain ⟨as, rfl⟩ : ∃ as, bs = as ++ [.blank []] := ⟨bs.dropLast, by
      have hne : bs ≠ [] := by rintro rfl; cases h
      have := List.dropLast_concat_getLast hne
      rw [List.getLast?_eq_some_getLast hne] at h
      rw [Option.some.inj h] at this
      exact this.symm⟩
    rw [List.dropLast_concat]
    refine ⟨['\n'], .line, ?_, fun h => nomatch h⟩
    cases as with
    | nil => rfl
    | cons b as =>
      rw [written_eq _ (b :: as) (fun h => nomatch h)]
      have : lines (b :: as ++ [.blank []]) = lines (b :: as) ++ [[]] := by simp [lines, Block.lines]
      rw [this, joinLF_append _ [[]] (lines_cons_ne b as) (fun h => nomatch h)]
      rfl
  · next h =>
    refine ⟨[], .eof, ?_, fun _ hl => h hl⟩
    cases bs with
    | nil => rfl
    | cons b bs => rw [written_eq _ (b :: bs) (fun h => nomatch h), List.append_nil]

/-- **C59**: a document of paragraphs and blank lines is split into exactly these: each paragraph with its lines in order, without the spaces at
their ends; nothing is dropped, added, joined or split. For all numbers of paragraphs and lines, whatever markup the lines contain, and all
meanings of the other code in the grammar; unless an error was reported. -/
theorem split_into_paragraphs (hS : Code S) (hA : Obeys A) (failed : σ → Bool) {depth rounds : Nat} {s : σ} {bs : List Block} {o : OutcomeV}
    (hg : Good (alnum S) bs) (h : loopV S A failed depth rounds s (source bs) = some o) :
    o.stop = .reported ∨ o = ⟨bs.map (fun b => [b.element]), .endOfDocument, []⟩ :=
  loop_written hS hA failed .line hg (fun h => nomatch h) (by rw [written_source]; exact h)

/-- The same for the text that preprocessing gives (C50 `document_unchanged`), in which the last line has no end: the last line is not lost, unless it
is empty. -/
theorem split_preprocessed (hS : Code S) (hA : Obeys A) (failed : σ → Bool) {depth rounds : Nat} {s : σ} {bs : List Block} {o : OutcomeV}
    (hg : Good (alnum S) bs) (h : loopV S A failed depth rounds s (joinLF (lines bs)) = some o) :
    o.stop = .reported ∨ o = ⟨(trimmed bs).map (fun b => [b.element]), .endOfDocument, []⟩ := by
  obtain ⟨z, hz, e, hc⟩ := joined_written bs
  exact loop_written hS hA failed hz (trimmed_good hg) hc (by rw [← e]; exact h)

/-- The loop ends. -/
theorem loopV_ends (hS : C45.ChecksProgress S) (failed : σ → Bool) (s : σ) (t : Text) :
    ∃ depth rounds o, loopV S A failed depth rounds s t = some o := by
  obtain ⟨depth, rounds, o, h⟩ := C46.fragments_end S hS failed (fun _ => false) 0 s t
  refine ⟨depth, rounds, ?_⟩
  have key : ∀ (rounds a : Nat) (s : σ) (t : Text) (o : Outcome), loop S failed (fun _ => false) depth rounds a s t = some o →
      ∃ o, loopV S A failed depth rounds s t = some o := by
    intro rounds
    induction rounds with
    | zero => intro a s t o h; cases h
    | succ rounds ih =>
      intro a s t o h
      cases t with
      | nil => exact ⟨_, rfl⟩
      | cons c t =>
        unfold loop at h
        unfold loopV
        have he := runV_erase grammar S A depth (.rule R.DocumentFragment) (c :: t) s (c :: t)
        cases hr : runV grammar S A depth (.rule R.DocumentFragment) (c :: t) s (c :: t) with
        | none => rw [hr] at he; rw [← he] at h; cases h
        | some q =>
          rw [hr] at he
          rw [← he] at h
          cases q with
          | fail s' => exact ⟨_, rfl⟩
          | ok s' v u =>
            dsimp only [Option.map, ResV.erase] at h ⊢
            by_cases hf : failed s' = true
            · exact ⟨_, by rw [if_pos hf]⟩
            · rw [if_neg hf] at h ⊢
              rw [if_neg (by decide)] at h
              cases hl : loop S failed (fun _ => false) depth rounds (a + ((c :: t).length - u.length)) s' u with
              | none => rw [hl] at h; cases h
              | some o' =>
                obtain ⟨o2, h2⟩ := ih _ _ _ _ hl
                split
                · exact ⟨_, rfl⟩
                · rw [h2]; exact ⟨_, rfl⟩
  exact key rounds 0 s t o h

theorem never_reported {depth : Nat} : ∀ (rounds : Nat) (s : σ) (t : Text) (o : OutcomeV),
    loopV S A (fun _ => false) depth rounds s t = some o → o.stop ≠ .reported := by
  intro rounds
  induction rounds with
  | zero => intro s t o h; cases h
  | succ rounds ih =>
    intro s t o h
    cases t with
    | nil => cases h; exact fun e => nomatch e
    | cons c t =>
      unfold loopV at h
      split at h
      · cases h
      · cases h; exact fun e => nomatch e
      · rw [if_neg (by decide)] at h
        split at h
        · cases h; exact fun e => nomatch e
        · split at h
          · cases h
          · next hl => cases h; have := ih _ _ _ hl; exact this

/-- The same, when no error is reported. -/
theorem paragraphs (hS : Code S) (hA : Obeys A) {bs : List Block} (hg : Good (alnum S) bs) (s : σ) :
    ∃ depth rounds, loopV S A (fun _ => false) depth rounds s (source bs) = some ⟨bs.map (fun b => [b.element]), .endOfDocument, []⟩ := by
  obtain ⟨depth, rounds, o, h⟩ := loopV_ends (A := A) hS.progress (fun _ => false) s (source bs)
  refine ⟨depth, rounds, ?_⟩
  rcases split_into_paragraphs hS hA _ hg h with h' | rfl
  · exact absurd h' (never_reported _ _ _ _ h)
  · exact h

/-- … of the preprocessed text. -/
theorem paragraphs_preprocessed (hS : Code S) (hA : Obeys A) {bs : List Block} (hg : Good (alnum S) bs) (s : σ) :
    ∃ depth rounds, loopV S A (fun _ => false) depth rounds s (joinLF (lines bs)) =
      some ⟨(trimmed bs).map (fun b => [b.element]), .endOfDocument, []⟩ := by
  obtain ⟨depth, rounds, o, h⟩ := loopV_ends (A := A) hS.progress (fun _ => false) s (joinLF (lines bs))
  refine ⟨depth, rounds, ?_⟩
  rcases split_preprocessed hS hA _ hg h with h' | rfl
  · exact absurd h' (never_reported _ _ _ _ h)
  · exact h

/-! ### The hypotheses can be met -/

/-- The line before the end of line that precedes `t`. -/
def lineBefore (st t : Text) : Text :=
  if (st.take (st.length - t.length)).getLast? = some '\n' then (st.take (st.length - t.length)).dropLast else st.take (st.length - t.length)

def sem : Sem Unit where
  letter c := c.isAlpha
  number c := c.isDigit
  pred id s st t := (if id = 303 then (st.take (st.length - t.length)).any (fun c => !C48.isSpace c)
    else if id = 298 then !hasLabel (trimRight (lineBefore st t))
    else decide (t.length < st.length), s)
  state _ s _ _ := s
  act _ s _ _ := s
  restore saved _ := saved

def acts : Peg.Code Unit := fun id _ v t => (code id v t).getD .nil

theorem acts_obey : Obeys acts := fun id s v t x h => by show (code id v t).getD .nil = x; rw [h]; rfl

theorem sem_code : Code sem where
  fragment s st t := decide_eq_true_iff
  visible s p t := by
    show List.any (List.take _ _) _ = _
    rw [List.length_append, Nat.add_sub_cancel, List.take_left' rfl]
  others id hid s st t h := by
    have h1 : id ≠ 303 := by rintro rfl; revert hid; decide
    have h2 : id ≠ 298 := by rintro rfl; revert hid; decide
    have : (if id = 303 then (st.take (st.length - t.length)).any (fun c => !C48.isSpace c)
      else if id = 298 then !hasLabel (trimRight (lineBefore st t))
      else decide (t.length < st.length)) = true := h
    rw [if_neg h1, if_neg h2] at this
    exact of_decide_eq_true this
  label s l z r hz h1 _ _ := by
    have e : lineBefore (l ++ z) r = l := by
      unfold lineBefore
      cases hz with
      | line =>
        have h1 : (l ++ '\n' :: r).length - r.length = (l ++ ['\n']).length := by simp; omega
        rw [h1, show l ++ '\n' :: r = (l ++ ['\n']) ++ r by simp, List.take_left' rfl, if_pos List.getLast?_concat, List.dropLast_concat]
      | eof =>
        have : (l ++ []).take ((l ++ []).length - ([] : Text).length) = l := by simp
        rw [this, if_neg (fun h => absurd (h1 '\n' (List.mem_of_getLast? h)) (by decide))]
    show (!hasLabel (trimRight (lineBefore (l ++ z) r))) = _
    rw [e]
  ascii c _ := ⟨rfl, rfl⟩

/-- Two paragraphs, one with markup, spaces at the end of a line, two lines and an indented one, between blank lines. -/
def sample : List Block :=
  [.blank [], .para ⟨"It *is* 1 < 2: http://a.org[x],".toList, " \t".toList⟩ [⟨"  {then} 3!".toList, []⟩, ⟨"1. no list".toList, [' ']⟩],
   .blank " ".toList, .blank [], .para ⟨"2.5 = x; a).".toList, []⟩ []]

theorem sample_good : Good (alnum sem) sample := by
  have ok : ∀ l : Line, (l.full.all (fun c => !isEol c) && l.text.any (fun c => !C48.isSpace c) && l.trail.all isBlank &&
      (l.text.getLast?.all (fun c => !isBlank c))) = true → l.Ok := by
    intro l h
    simp only [Bool.and_eq_true] at h
    obtain ⟨⟨⟨h1, h2⟩, h3⟩, h4⟩ := h
    refine ⟨fun c hc => by simpa using List.all_eq_true.mp h1 c hc, ?_, fun c hc => List.all_eq_true.mp h3 c hc, fun c hc => ?_⟩
    · obtain ⟨c, hc, h⟩ := List.any_eq_true.mp h2
      exact ⟨c, hc, by simpa using h⟩
    · rw [hc] at h4; simpa using h4
  have op : ∀ (l : Line) (c : Char) (r : Text), l.full = c :: r → alnum sem c = true →
      (match r with | d :: _ => !(d == '.' || d == ')') | [] => true) = true →
      (¬ [':', ':'] <:+: l.full) → (∀ p ∈ C48.admonitions, ¬ p <+: l.full) → Opens (alnum sem) l := by
    intro l c r h1 h2 h3 h4 h5
    refine ⟨⟨c, r, h1, h2, fun d x _ hd hp => ?_⟩, h4, h5⟩
    obtain ⟨z, rfl⟩ := hp
    rcases hd with rfl | rfl <;> exact absurd (show false = true from h3) (by decide)
  have co : ∀ l : Line, (match l.full with | c :: _ => decide (c ∉ openers) | [] => true) = true → Continues l := by
    intro l h c r e
    rw [e] at h
    exact of_decide_eq_true h
  refine ⟨by decide, ok _ (by decide +kernel), ?_, ?_, trivial, by decide, by decide, ok _ (by decide +kernel), ?_, by simp, trivial, trivial⟩
  · exact op _ _ _ rfl (by decide) (by decide) (by decide +kernel) (by decide +kernel)
  · intro x hx
    simp only [List.mem_cons, List.not_mem_nil, or_false] at hx
    rcases hx with rfl | rfl <;> exact ⟨ok _ (by decide +kernel), co _ (by decide +kernel)⟩
  · refine ⟨⟨'2', ".5 = x; a).".toList, rfl, by decide, fun d x hx hd hp => ?_⟩, by decide +kernel, by decide +kernel⟩
    obtain ⟨z, hz⟩ := hp
    have : x = '5' := by
      have h2 := congrArg (fun t : Text => t[1]?) hz
      simpa using h2
    subst this
    exact absurd hx (by decide)

example : source sample = "\nIt *is* 1 < 2: http://a.org[x], \t\n  {then} 3!\n1. no list \n \n\n2.5 = x; a).\n".toList := by decide +kernel

example : ∃ depth rounds, loopV sem acts (fun _ => false) depth rounds () (source sample) = some ⟨
    [[.leaf 0], [.paragraph [] [.raw "It *is* 1 < 2: http://a.org[x],\n".toList, .raw "  {then} 3!\n".toList, .raw "1. no list".toList]],
     [.leaf 0], [.leaf 0], [.paragraph [] [.raw "2.5 = x; a).".toList]]], .endOfDocument, []⟩ :=
  paragraphs sem_code acts_obey sample_good ()

end C59
end Verif
