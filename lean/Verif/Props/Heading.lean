import Verif.Spec.Sectioned
import Verif.Proofs.Begins
import Verif.Props.BlockParse
import Verif.Props.PlainText

/-!
# C63 — The titles of sections, in the grammar
-/
namespace Verif
namespace C63
open Peg Grammar Actions Sectioned
open C59 (Code Cut alnum)
open C58 (Took Piece Pieces)
open Walk (Any)

variable {σ : Type} {S : Sem σ} {A : Peg.Code σ} {z r : Text}

/-- What is interpreted, as it is written in the grammar. -/
def strings : List Text := ("\"`" :: "=>" :: "->" :: marks).map String.toList

/-- Nothing to interpret. -/
def Calm (l : Text) : Prop := (∀ m ∈ marks, ¬ m.toList <:+: l) ∧ ∀ c ∈ l, isEol c = false

theorem calm_suffix {l l' : Text} (h : Calm l) (hs : l' <:+ l) : Calm l' :=
  ⟨fun m hm hi => h.1 m hm (hi.trans hs.isInfix), fun c hc => h.2 c (hs.subset hc)⟩

theorem calm_free (hz : Cut z r) {l : Text} (h : Calm l) : ∀ f ∈ strings, ¬ f <+: l ++ z := by
  intro f hf hp
  have hl : f.all (fun c => !isEol c) = true := by
    have : strings.all (fun f => f.all (fun c => !isEol c)) = true := by decide +kernel
    exact List.all_eq_true.mp this f hf
  have hp := C59.prefix_line hz (fun c hc => by simpa using List.all_eq_true.mp hl c hc) hp
  have key : ∀ m ∈ marks, ¬ m.toList <:+: f := fun m hm hi => h.1 m hm (hi.trans hp.isInfix)
  have : strings.all (fun f => marks.any (fun m => decide (m.toList <:+: f))) = true := by decide +kernel
  obtain ⟨m, hm, hi⟩ := List.any_eq_true.mp (List.all_eq_true.mp this f hf)
  exact key m hm (of_decide_eq_true hi)

theorem never_begins (hz : Cut z r) {l : Text} (h : Calm l) (e : Exp) (he : begins grammar strings 30 e = true) : Never grammar S e (l ++ z) :=
  begins_never (calm_free hz h) 30 e he

/-- Ends of lines are no letters and no numbers. -/
theorem eol_class (hS : Code S) : ∀ x, isEol x = true → S.letter x = false ∧ S.number x = false := by
  intro x hx
  simp only [isEol, Bool.or_eq_true, beq_iff_eq] at hx
  rcases hx with rfl | rfl <;> (rw [(hS.ascii _ (by decide)).1, (hS.ascii _ (by decide)).2]; decide)

theorem not_special {l : Text} (h : Calm l) : ∀ c ∈ l, PlainText.isSpecial c = false := by
  intro c hc
  cases hs : PlainText.isSpecial c with
  | false => rfl
  | true =>
    obtain ⟨a, b, rfl⟩ := List.append_of_mem hc
    exfalso
    simp only [PlainText.isSpecial, Bool.or_eq_true, beq_iff_eq] at hs
    rcases hs with (rfl | rfl) | rfl
    · exact h.1 "<" (by decide) ⟨a, b, by simp⟩
    · exact h.1 ">" (by decide) ⟨a, b, by simp⟩
    · exact h.1 "&" (by decide) ⟨a, b, by simp⟩

theorem classes (hS : Code S) : C58.Classes S := by
  intro c hs
  simp only [PlainText.isSpecial, Bool.or_eq_true, beq_iff_eq] at hs
  rcases hs with (rfl | rfl) | rfl <;> (rw [(hS.ascii _ (by decide)).1, (hS.ascii _ (by decide)).2]; decide)

/-- The beginning of the title was taken as one piece. -/
def TookTitle (z l : Text) (o : Option (List Any × Text)) : Prop :=
  ∃ w l' v, o = some ([v], l' ++ z) ∧ l = w ++ l' ∧ w ≠ [] ∧ Piece false w v

/-- A piece that stays on the line is a piece of the title. -/
theorem on_line (hS : Code S) (hz : Cut z r) {c : Char} {l : Text} {e : Exp} (hin : inLine grammar 30 e = true)
    (h : Gives grammar S A e (c :: l ++ z) (fun o => o = none ∨ Took false (c :: l ++ z) o)) :
    Gives grammar S A e (c :: l ++ z) (fun o => o = none ∨ TookTitle z (c :: l) o) := by
  intro st s q hq
  have hs := inLine_eval (eol_class hS) 30 hin hq.erase
  rcases h st s q hq with h | ⟨w, u, v, h1, h2, h3, h4⟩
  · exact .inl h
  · refine .inr ?_
    have hr : q.erase.rest = some u := by rw [ResV.out_rest, h1]; rfl
    obtain ⟨w', e1, e2⟩ := hs u hr
    have hww : w' = w := List.append_cancel_right (e1.symm.trans h2)
    subst hww
    -- `w'` has no end of line, so it is a part of the title
    have hp : w' <+: c :: l := C59.prefix_line hz e2 ⟨u, h2.symm⟩
    obtain ⟨l', hl'⟩ := hp
    refine ⟨w', l', v, ?_, hl'.symm, h3, h4⟩
    have : u = l' ++ z := by
      rw [← hl', List.append_assoc] at h2
      exact (List.append_cancel_left h2).symm
    rw [h1, this]

theorem never_email (hS : Code S) (hz : Cut z r) {l : Text} (h : Calm l) : Never grammar S (.rule R.EmailAddress) (l ++ z) := by
  refine yields_rule (yields_act (yields_scope ?_))
  intro st s q hq
  rcases eval_seq.mp hq with ⟨_, _, rfl⟩ | ⟨s1, u, h1, h2⟩
  · rfl
  · obtain ⟨w, e1, e2⟩ := inLine_eval (eol_class hS) 30 (by decide +kernel) h1 u rfl
    obtain ⟨l', rfl⟩ := C59.prefix_line hz e2 ⟨u, e1.symm⟩
    rw [List.append_assoc] at e1
    have hu : u = l' ++ z := (List.append_cancel_left e1).symm
    subst hu
    refine never_seq (C59.never_lit (by decide) ?_) _ _ _ h2
    intro hp
    have := C59.prefix_line hz (by decide) hp
    exact h.1 "@" (by decide) (this.isInfix.trans (List.suffix_append _ _).isInfix)

theorem never_link (hS : Code S) (hz : Cut z r) {l : Text} (h : Calm l) : Never grammar S (.rule R.Link) (l ++ z) :=
  yields_rule (yields_alt_right (never_begins hz h _ (by decide +kernel)) (yields_alt_right (never_begins hz h _ (by decide +kernel))
    (yields_alt_right (never_begins hz h _ (by decide +kernel)) (never_email hS hz h))))

theorem never_holder {c : Char} {l t : Text} (h : Calm (c :: l)) : Never grammar S (.rule R.ElementPlaceHolder) (c :: t) := by
  refine C62.never_place ?_
  rintro rfl
  exact h.1 "\uFFFD" (by decide) ⟨[], l, rfl⟩

/-- The alternatives for an element of a title (parser.peg:2309-2324). -/
def titleElement : Exp := .alt (.rule R.InlineText) (.alt (.rule R.Spaces) (.alt (.rule
    R.TypographicQuote) (.alt (.rule R.Replacement) (.alt (.rule R.Punctuation) (.alt (.rule R.Quote) (.alt
    (.rule R.InlinePassthrough) (.alt (.rule R.Link) (.alt (.rule R.SpecialCharacter) (.alt (.rule R.InlineIcon)
    (.alt (.rule R.AttributeReference) (.alt (.rule R.ElementPlaceHolder) (.alt (.rule R.SectionTitleLegacyID)
    (.alt (.rule R.InlineAnchor) (.alt (.rule R.InlineFootnote) (.rule R.AnyChar)))))))))))))))

theorem gives_titleElement (hS : Code S) (hA : Obeys A) (hz : Cut z r) {c : Char} {l : Text} (h : Calm (c :: l)) :
    Gives grammar S A titleElement (c :: l ++ z) (fun o => o = none ∨ TookTitle z (c :: l) o) := by
  have nb : ∀ e, begins grammar strings 30 e = true → Never grammar S e (c :: l ++ z) := fun e he => never_begins hz h e he
  refine C58.gives_orElse (on_line hS hz (by decide +kernel) (C58.gives_InlineText hA (classes hS)))
    (C58.gives_orElse (on_line hS hz (by decide +kernel) (C58.gives_Spaces hA)) ?_)
  refine gives_alt_never (nb _ (by decide +kernel)) (gives_alt_never (nb _ (by decide +kernel))
    (C58.gives_orElse (on_line hS hz (by decide +kernel) (C58.gives_Punctuation hA)) ?_))
  refine gives_alt_never (nb _ (by decide +kernel)) (gives_alt_never (nb _ (by decide +kernel)) (gives_alt_never (never_link hS hz h)
    (gives_alt_never (nb _ (by decide +kernel)) (gives_alt_never (nb _ (by decide +kernel)) (gives_alt_never (nb _ (by decide +kernel))
    (gives_alt_never (never_holder h) (gives_alt_never (nb _ (by decide +kernel)) (gives_alt_never (nb _ (by decide +kernel))
    (gives_alt_never (nb _ (by decide +kernel)) ?_)))))))))
  exact on_line hS hz (by decide +kernel) (C58.gives_AnyChar hA rfl)

theorem sure_titleElement (hz : Cut z r) {c : Char} {l : Text} (hc : isEol c = false) : Sure grammar S titleElement (c :: l ++ z) := by
  have h : Sure grammar S (.rule R.AnyChar) (c :: l ++ z) := by
    refine sure_rule (sure_act ?_)
    refine (yields_cls (t := l ++ z) ?_).sure
    simp only [isEol, Bool.or_eq_false_iff, beq_eq_false_iff_ne] at hc
    simp [Cls.has, hc.1, hc.2]
  exact sure_alt_right (sure_alt_right (sure_alt_right (sure_alt_right (sure_alt_right (sure_alt_right (sure_alt_right (sure_alt_right (sure_alt_right
    (sure_alt_right (sure_alt_right (sure_alt_right (sure_alt_right (sure_alt_right (sure_alt_right h))))))))))))))

theorem never_EOL {c : Char} {t : Text} (hc : isEol c = false) : Never grammar S (.rule R.EOL) (c :: t) := by
  refine yields_EOL.to ?_
  simp only [isEol, Bool.or_eq_false_iff, beq_eq_false_iff_ne] at hc
  show newline (c :: t) = none
  rw [newline_lit]
  simp [matchLit, Ne.symm hc.1, Ne.symm hc.2]

theorem yields_end (hz : Cut z r) : Yields grammar S (.rule R.EOL) z (some r) := by
  cases hz with
  | line => exact yields_EOL
  | eof => exact yields_EOL

/-- An element of a title. -/
theorem gives_titleRule (hS : Code S) (hA : Obeys A) (hz : Cut z r) {c : Char} {l : Text} (h : Calm (c :: l)) :
    Gives grammar S A (.rule R.SectionTitleElement) (c :: l ++ z) (TookTitle z (c :: l)) := by
  have hc := h.2 c List.mem_cons_self
  refine gives_rule (gives_act (P := fun o => ∃ w l' v, o = some ([.slice [.nil, v]], l' ++ z) ∧ c :: l = w ++ l' ∧ w ≠ [] ∧ Piece false w v)
    (gives_scope (P := fun o => ∃ w l' v, o = some ([.nil, v], l' ++ z) ∧ c :: l = w ++ l' ∧ w ≠ [] ∧ Piece false w v)
      (gives_seq (P := fun o => o = some ([.nil], c :: l ++ z)) ?_ (fun h => nomatch h) ?_) ?_ ?_) ?_ ?_)
  · exact gives_notP_never (fun st s r h => never_EOL hc st s r h)
  · intro v u hv
    cases hv
    refine ((gives_titleElement hS hA hz h).and_sure (sure_titleElement hz hc)).mono (fun o ho => ?_)
    obtain ⟨rfl | ⟨w, u, v, rfl, h2, h3, h4⟩, hn⟩ := ho
    · exact absurd rfl hn
    · exact ⟨w, u, v, rfl, h2, h3, h4⟩
  · rintro ⟨w, u, v, h, _⟩; cases h
  · rintro v u ⟨w, u', v', h, h2⟩; cases h; exact ⟨w, u', v', rfl, h2⟩
  · rintro ⟨w, u, v, h, _⟩; cases h
  · rintro s v u ⟨w, u', v', h, h2⟩
    cases h
    exact ⟨w, u', v', by rw [hA 367 s _ _ _ rfl], h2⟩

theorem never_titleRule (hz : Cut z r) : Never grammar S (.rule R.SectionTitleElement) z :=
  yields_rule (yields_act (yields_scope (never_seq (never_notP (yields_end hz).sure))))

theorem gives_titleLoop (hS : Code S) (hA : Obeys A) (hz : Cut z r) : ∀ l, Calm l →
    Gives grammar S A (.star (.rule R.SectionTitleElement)) (l ++ z) (fun o => ∃ vs, o = some ([.slice vs], z) ∧ Pieces false l vs) := by
  intro l hl
  induction hn : l.length using Nat.strongRecOn generalizing l with
  | ind n ih =>
    cases l with
    | nil =>
      exact gives_star (P := fun o => o = none) (gives_never (never_titleRule hz) rfl) (fun _ => ⟨[], rfl, .nil⟩) (fun v u h => nomatch h)
    | cons c l =>
      refine gives_star (gives_titleRule hS hA hz hl) (fun h => ?_) (fun v u h => ?_)
      · obtain ⟨w, u, v, h, _⟩ := h; cases h
      · obtain ⟨w, l', v', h, h2, h3, h4⟩ := h
        cases h
        refine (ih l'.length ?_ l' (calm_suffix hl ⟨w, h2.symm⟩) rfl).mono (fun o ho => ?_)
        · have hlen := congrArg List.length h2
          have : 0 < w.length := List.length_pos_iff.mpr h3
          simp only [List.length_append] at hlen
          omega
        · obtain ⟨vs, rfl, hv⟩ := ho
          exact ⟨v' :: vs, rfl, h2 ▸ .cons h3 h4 hv⟩

theorem pieces_false {l : Text} (h : l ≠ []) : PlainText.pieces false l = [.str l] := by
  rw [C58.pieces_text l (fun _ _ => rfl)]
  cases l with
  | nil => exact absurd rfl h
  | cons c l => rfl

/-- A title. -/
theorem title_rule (hS : Code S) (hA : Obeys A) (hz : Cut z r) {l : Text} (hl : Calm l) (hne : l ≠ []) {st : Text} :
    Exactly grammar S A st (.rule R.SectionTitle) (l ++ z) [.slice [.str l]] z := by
  have h : Gives grammar S A (.rule R.SectionTitle) (l ++ z) (fun o => o = some ([.slice [.str l]], z)) := by
    cases l with
    | nil => exact absurd rfl hne
    | cons c l =>
      refine gives_rule (gives_act (P := fun o => ∃ vs, o = some ([.slice [.nil, .slice vs]], z) ∧ Pieces false (c :: l) vs)
        (gives_scope (P := fun o => ∃ vs, o = some ([.nil, .slice vs], z) ∧ Pieces false (c :: l) vs)
          (gives_seq (P := fun o => o = some ([.nil], c :: l ++ z)) gives_state (fun h => nomatch h) ?_) ?_ ?_) ?_ ?_)
      · intro v u hv
        cases hv
        refine gives_plus (gives_titleRule hS hA hz hl) (fun h => ?_) (fun v u h => ?_)
        · obtain ⟨w, u, v, h, _⟩ := h; cases h
        · obtain ⟨w, l', v', h, h2, h3, h4⟩ := h
          cases h
          refine (gives_titleLoop hS hA hz l' (calm_suffix hl ⟨w, h2.symm⟩)).mono (fun o ho => ?_)
          obtain ⟨vs, rfl, hv⟩ := ho
          exact ⟨v' :: vs, rfl, h2 ▸ .cons h3 h4 hv⟩
      · rintro ⟨vs, h, _⟩; cases h
      · rintro v u ⟨vs, h, hv⟩; cases h; exact ⟨vs, rfl, hv⟩
      · rintro ⟨vs, h, _⟩; cases h
      · rintro s v u ⟨vs, h, hv⟩
        cases h
        have : ∀ t, code 366 [.slice [.nil, .slice vs]] t = some (.slice [.str (c :: l)]) := by
          intro t
          have := C58.code_group hv
          rw [pieces_false hne] at this
          exact this
        rw [hA 366 s _ _ _ (this _)]
  exact fun s q hq => h st s q hq

/-! ### Sections -/

/-- What is assumed of the code of `Section` (parser.peg:2281-2292), outside of delimited blocks: the checks of the place and of the number of equal signs. -/
structure SectCode (S : Sem σ) : Prop where
  top : ∀ s st t, (S.pred 361 s st t).1 = true
  level : ∀ s k t, t.head? ≠ some '=' → (S.pred 363 s (List.replicate k '=' ++ t) t).1 = decide (k ≤ 6)

theorem calm_heading {h : Heading} (hh : h.Ok) : Calm (h.title ++ h.trail) :=
  ⟨hh.plain, fun c hc => (List.mem_append.mp hc).elim (hh.one c) (fun hc => by rw [hh.trail c hc]; rfl)⟩

theorem yields_marks {x : Text} (hx : x.head? ≠ some '=') (k : Nat) : Yields grammar S (.plus (.lit ['='])) (List.replicate (k + 1) '=' ++ x) (some x) := by
  rw [List.replicate_succ]
  refine yields_plus_step (yields_lit (l := ['='])) ((C49.yields_star_lit (by decide) _).to ?_)
  show some ((List.replicate k '=' ++ x).dropWhile (fun x => x == '=')) = _
  rw [List.dropWhile_append_of_pos (fun c hc => by simpa using (List.mem_replicate.mp hc).2)]
  cases x with
  | nil => rfl
  | cons c x =>
    rw [List.dropWhile_cons_of_neg]
    intro h
    exact hx (by simpa using h)

theorem yields_gap {w x : Text} (hw : ∀ c ∈ w, isBlank c = true) (hne : w ≠ []) (hx : ∀ c, x.head? = some c → isBlank c = false) :
    Yields grammar S (.plus (.cls ⟨false, ['\t', ' '], [], false, false⟩)) (w ++ x) (some x) := by
  cases w with
  | nil => exact absurd rfl hne
  | cons c w =>
    have hb : ∀ c, (Cls.mk false ['\t', ' '] [] false false).has S.letter S.number c = isBlank c := fun c => has_blank c
    have := C58.yields_plus_class (S := S) (k := ⟨false, ['\t', ' '], [], false, false⟩) (c := c) (t := w ++ x) (by rw [hb]; exact hw c List.mem_cons_self)
    refine this.to ?_
    rw [show (c :: (w ++ x)) = (c :: w) ++ x from rfl, List.dropWhile_append_of_pos (fun d hd => by rw [hb]; exact hw d hd)]
    cases x with
    | nil => rfl
    | cons d x => rw [List.dropWhile_cons_of_neg]; rw [hb, hx d rfl]; decide

theorem title_head {h : Heading} (hh : h.Ok) {x : Text} : ∃ c t, h.title ++ x = c :: t ∧ isBlank c = false := by
  cases ht : h.title with
  | nil => exact absurd ht hh.some_
  | cons c t =>
    refine ⟨c, t ++ x, rfl, ?_⟩
    have := hh.first c (by rw [ht]; rfl)
    cases hb : isBlank c with
    | false => rfl
    | true =>
      simp only [isBlank, Bool.or_eq_true, beq_iff_eq] at hb
      rcases hb with rfl | rfl <;> cases this

theorem trim_title {h : Heading} (hh : h.Ok) : Walk.trimTitle [.str (h.title ++ h.trail)] = [.str h.title] := by
  have e : Walk.trimSpaces (h.title ++ h.trail) = h.title := by
    unfold Walk.trimSpaces
    rw [List.reverse_append, List.dropWhile_append_of_pos (fun c hc => by simpa using hh.trail c (List.mem_reverse.mp hc))]
    cases hr : h.title.reverse with
    | nil => exact absurd (List.reverse_eq_nil_iff.mp hr) hh.some_
    | cons c t =>
      have hc : h.title.getLast? = some c := by
        rw [← List.reverse_reverse h.title, hr, List.getLast?_reverse]
        rfl
      rw [List.dropWhile_cons_of_neg, ← hr, List.reverse_reverse]
      intro hs
      have : c = ' ' := by simpa using hs
      subst this
      exact absurd (hh.last _ hc) (by decide)
  show (if Walk.trimSpaces (h.title ++ h.trail) = [] then _ else [Any.str (Walk.trimSpaces (h.title ++ h.trail))]) = _
  rw [e, if_neg hh.some_]

/-- The line of a section. -/
theorem section_rule (hS : Code S) (hC : SectCode S) (hA : Obeys A) (hz : Cut z r) {h : Heading} (hh : h.Ok) {st : Text} :
    Exactly grammar S A st (.rule R.Section) (h.line ++ z) [.section h.level [] [.str h.title]] r := by
  obtain ⟨c, x, ht, hc⟩ := title_head (x := h.trail ++ z) hh
  have hgap : ∃ d y, h.gap = d :: y ∧ isBlank d = true := by
    cases hg : h.gap with
    | nil => exact absurd hg hh.apart
    | cons d y => exact ⟨d, y, rfl, hh.gap d (by rw [hg]; exact List.mem_cons_self)⟩
  obtain ⟨d, y, hd, hb⟩ := hgap
  have hhead : (h.gap ++ ((h.title ++ h.trail) ++ z)).head? ≠ some '=' := by
    rw [hd]
    intro e
    rw [Option.some.inj e] at hb
    cases hb
  have hline : h.line ++ z = List.replicate (h.level + 1) '=' ++ (h.gap ++ ((h.title ++ h.trail) ++ z)) := by
    simp [Heading.line, List.append_assoc]
  rw [hline]
  obtain ⟨v, hv⟩ := C62.eolV (S := S) hA hz
  refine exactly_rule (exactly_act (exactly_scope (exactly_seq (exactly_pred (fun s => hC.top s _ _)) (exactly_seq
    (exactly_of_yields (yields_marks hhead h.level) (y := .plain h.level) (fun s v => ?_)) (exactly_seq (exactly_pred (fun s => ?_)) (exactly_seq
    (exactly_rule (exactly_of_yields (yields_gap hh.gap hh.apart (x := (h.title ++ h.trail) ++ z) ?_) (y := .text h.gap) (fun s v => ?_))) (exactly_seq
    (title_rule hS hA hz (calm_heading hh) ?_) (hv _))))))) (fun s => ?_))
  · rw [C58.span_append, hA 362 s v _ _ rfl, List.length_replicate]
    rfl
  · rw [hC.level s _ _ hhead]
    simp [hh.most]
  · intro b hb
    rw [List.append_assoc, ht] at hb
    rw [← Option.some.inj hb]
    exact hc
  · rw [C58.span_append]
    exact hA _ s v _ _ rfl
  · intro e
    exact hh.some_ (List.append_eq_nil_iff.mp e).1
  · refine hA 364 s _ _ _ ?_
    show some (Any.section h.level [] (Walk.trimTitle [.str (h.title ++ h.trail)])) = _
    rw [trim_title hh]

theorem heading_fail : (∀ i ∈ C49.before, runO grammar (fun _ _ => none) 80 (.rule i) ['=', '='] ['=', '='] = some [.fail]) ∧
    runO grammar (fun _ _ => none) 80 (.rule R.UserMacroBlock) ['=', '='] ['=', '='] = some [.fail] := by decide +kernel

/-- A section is a fragment. -/
theorem heading_fragment (hS : Code S) (hC : SectCode S) (hA : Obeys A) (hz : Cut z r) {h : Heading} (hh : h.Ok) {st : Text} :
    Exactly grammar S A st (.rule R.DocumentFragment) (h.line ++ z) [.section h.level [] [.str h.title]] r := by
  have hx := fun st => section_rule (st := st) hS hC hA hz hh
  obtain ⟨x, ex⟩ : ∃ x, h.line ++ z = ['=', '='] ++ x := by
    obtain ⟨m, hm⟩ : ∃ m, h.level = m + 1 := ⟨h.level - 1, by have := hh.least; omega⟩
    refine ⟨List.replicate m '=' ++ (h.gap ++ (h.title ++ h.trail)) ++ z, ?_⟩
    unfold Heading.line
    rw [hm]
    rfl
  have hlt : r.length < (h.line ++ z).length := by
    have h1 : r.length ≤ z.length := by cases hz <;> simp
    have h2 : 0 < h.line.length := by simp [Heading.line]; omega
    rw [List.length_append]
    omega
  rw [ex] at hx hlt ⊢
  have hb : ∀ i ∈ C49.before, Never grammar S (.rule i) (['=', '='] ++ x) := fun i hi => never_of_prefix (C62.follows hS) x (heading_fail.1 i hi)
  have hm : Never grammar S (.rule R.UserMacroBlock) (['=', '='] ++ x) := never_of_prefix (C62.follows hS) x heading_fail.2
  refine C59.fragment hA hS (hb _ (by decide)) hlt (fun st => ?_)
  exact exactly_alt_right (hb _ (by decide)) (exactly_alt_right hm (exactly_alt_right (hb _ (by decide)) (exactly_alt_right (hb _ (by decide))
    (exactly_alt_right (hb _ (by decide)) (exactly_alt_right (hb _ (by decide)) (exactly_alt_right (hb _ (by decide)) (exactly_alt_left (hx st))))))))

end C63
end Verif
