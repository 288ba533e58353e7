import Verif.Props.Inlined
import Verif.Props.InlineNot

/-!
# C65 — Inline markup: the hypotheses can be met
-/
namespace Verif
namespace C65
open PlainText Paragraphs Actions Inlined
open Subs (Sub)
open Peg (Sem)

/-! ### A parser -/

/-- The parser, with the byte that is tracked. -/
def sem (E : List Sub) : Sem (Option Char) where
  letter c := c.isAlpha
  number c := c.isDigit
  pred id s st t :=
    (if id ∈ [313, 324, 335, 346] then (s.map (quoteAllowed Char.isAlpha Char.isDigit)).getD true
     else if id ∈ [314, 325, 336, 347] then !(s.map spaceByte).getD false
     else if id = 398 then (s.map spaceByte).getD false
     else if id ∈ [387, 400] then (s.map (fun c => c.isAlpha || c.isDigit)).getD false
     else if id ∈ [316, 327, 338, 349] then decide ((Peg.span st t).getLast? ≠ some ' ')
     else if id = 442 then decide (Sub.quotes ∉ E)
     else match guards.lookup id with
      | some x => decide (x ∈ E)
      | none => decide (t.length < st.length), s)
  state _ s _ _ := s
  act id s t u := if id ∈ tracking then (Peg.span t u).getLast?.map Actions.lastByte else s
  restore _ now := now

def acts : Peg.Code (Option Char) := fun id _ v t => (code id v t).getD .nil

theorem acts_obey : Obeys acts := fun id s v t x h => by show (code id v t).getD .nil = x; rw [h]; rfl

theorem sem_other {E : List Sub} {id : Nat} (h : id ∉ [313, 324, 335, 346, 314, 325, 336, 347, 398, 387, 400, 316, 327, 338, 349, 442]) (s : Option Char) (st t : Text) :
    ((sem E).pred id s st t).1 = (match guards.lookup id with
      | some x => decide (x ∈ E)
      | none => decide (t.length < st.length)) := by
  simp only [List.mem_cons, List.not_mem_nil, or_false, not_or] at h
  simp only [sem, List.mem_cons, List.not_mem_nil, or_false, h]
  rfl

theorem sem_inl {E : List Sub} (h1 : Sub.quotes ∈ E) (h2 : Sub.replacements ∈ E) (h3 : Sub.specialchars ∈ E) (h5 : Sub.macros ∈ E) (h4 : Sub.callouts ∉ E) :
    Inl (sem E) acts E (fun s => s) where
  progress := by
    intro id hid s st t h
    have h0 : guards.lookup id = none ∧ id ∉ [313, 324, 335, 346, 314, 325, 336, 347, 398, 387, 400, 316, 327, 338, 349, 442] := by
      simp only [List.mem_cons, List.not_mem_nil, or_false] at hid
      rcases hid with rfl | rfl | rfl | rfl <;> exact ⟨rfl, by decide⟩
    rw [sem_other h0.2, h0.1] at h
    exact of_decide_eq_true h
  obeys := acts_obey
  enabled := by
    intro g hg s st t
    have h0 : ∀ g ∈ guards, guards.lookup g.1 = some g.2 ∧ g.1 ∉ [313, 324, 335, 346, 314, 325, 336, 347, 398, 387, 400, 316, 327, 338, 349, 442] := by decide
    rw [sem_other (h0 g hg).2, (h0 g hg).1]
  quotes := h1
  replacements := h2
  specialchars := h3
  macros := h5
  callouts := h4
  tracks := {
    set := fun id s t u h => if_pos h
    act := fun id s t u h => if_neg h
    pred := fun _ _ _ _ => rfl
    state := fun _ _ _ _ => rfl
    restore := fun _ _ => rfl
    opens := fun id s st t h => by
      simp only [List.mem_cons, List.not_mem_nil, or_false] at h
      rcases h with rfl | rfl | rfl | rfl <;> rfl
    closes := fun id s st t h => by
      simp only [List.mem_cons, List.not_mem_nil, or_false] at h
      rcases h with rfl | rfl | rfl | rfl <;> rfl
    spaced := fun s st t => rfl
    word := fun id s st t h => by
      simp only [List.mem_cons, List.not_mem_nil, or_false] at h
      rcases h with rfl | rfl <;> rfl
    valid := fun id s st t h hs => by
      simp only [List.mem_cons, List.not_mem_nil, or_false] at h
      rcases h with rfl | rfl | rfl | rfl <;> exact decide_eq_true hs }
  marksOff := fun s st t => decide_eq_false (fun h => h h1)
  ascii := fun c _ => ⟨rfl, rfl⟩

/-- After the comma of `a,*b*` a mark opens nothing, and after the space of `*a *b` it closes nothing. -/
example (st : Text) (q : Peg.Res (Option Char)) (h : Peg.Eval Grammar.grammar (sem Subs.normal) (.rule Grammar.R.SingleQuoteBoldText) st (some ',') "*b*".toList q) : q.rest = none :=
  opens_nothing (sem_inl (E := Subs.normal) (by decide) (by decide) (by decide) (by decide) (by decide)).tracks rfl (.inr (.inr (by decide))) _ List.mem_cons_self st _ q h

example (st : Text) (q : Peg.Res (Option Char)) (h : Peg.Eval Grammar.grammar (sem Subs.normal) (.rule Grammar.R.SingleQuoteBoldTextEndDelimiter) st (some ' ') "*b".toList q) : q.rest = none :=
  closes_nothing (sem_inl (E := Subs.normal) (by decide) (by decide) (by decide) (by decide) (by decide)).tracks rfl (by decide) _ List.mem_cons_self st _ q h

/-- Everything is parsed with the grammar and the actions that are modelled. -/
noncomputable def world : Walk.World where
  parse c t := by
    classical
    exact if h : ∃ es, ∃ n s' u, Peg.runV Grammar.grammar (sem c.subs) acts n (.rule Grammar.R.NormalGroup) t none t = some (.ok s' [.slice es] u)
      then some h.choose else none
  plainText _ := none
  attribution _ := none
  format _ := []

theorem world_spoken : Spoken Char.isAlpha Char.isDigit world := by
  intro c t _ hs _
  refine ⟨Option Char, sem c.subs, acts, none, fun s => s, ?_, rfl, rfl, rfl, ?_⟩
  · rw [hs]; exact sem_inl (by decide) (by decide) (by decide) (by decide) (by decide)
  · intro n s' es u h
    have hx : ∃ es, ∃ n s' u, Peg.runV Grammar.grammar (sem c.subs) acts n (.rule Grammar.R.NormalGroup) t none t = some (.ok s' [.slice es] u) :=
      ⟨es, n, s', u, h⟩
    refine (dif_pos hx).trans ?_
    obtain ⟨n2, s2, u2, h2⟩ := hx.choose_spec
    have := Peg.runV_one h h2
    injection this with _ h3 _
    injection h3 with h3 _
    injection h3 with h3
    rw [← h3]

/-! ### Texts -/

section
variable {letter number : Char → Bool}

instance clearDec (next : Text) : ∀ w, Decidable (Clear next w)
  | [] => .isTrue trivial
  | c :: w => by
    have := clearDec next w
    unfold Clear
    infer_instance

instance textDec (t next : Text) : Decidable (TextOk letter number t next) :=
  decidable_of_iff (t ≠ [] ∧ (∀ c ∈ t, c ∉ reserved) ∧ Clear next t ∧ (¬ ['\n', '\n'] <:+: t) ∧
    ∀ c ∈ next.head?, letter c = false ∧ number c = false ∧ Grammar.isBlank c = false ∧ Grammar.isEol c = false)
    ⟨fun h => ⟨h.1, h.2.1, h.2.2.1, h.2.2.2.1, h.2.2.2.2⟩, fun h => ⟨h.1, h.2, h.3, h.4, h.5⟩⟩

instance wordDec (prev : Option Char) : Decidable (wordBefore letter number prev) :=
  decidable_of_iff (∃ c ∈ prev, (letter c = true ∨ number c = true) ∧ isGap c = false) Iff.rfl

instance signDec (prev : Option Char) (next : Text) (s : Sign) : Decidable (s.Ok letter number prev next) := by
  unfold Sign.Ok
  cases s <;> infer_instance

instance openDec (prev : Option Char) : Decidable (MayOpen letter number prev) := by unfold MayOpen; infer_instance
instance beginsDec (m : Mark) (t : Text) : Decidable (m.Begins t) := by unfold Mark.Begins; infer_instance
instance endsDec (m : Mark) (t : Text) : Decidable (m.Ends letter number t) := by unfold Mark.Ends; infer_instance

instance labelDec : ∀ l : Text, Decidable (LabelOk letter number l)
  | [] => .isFalse (fun ⟨_, _, h, _⟩ => nomatch h)
  | c :: r => decidable_of_iff (r ≠ [] ∧ (letter c = true ∨ number c = true) ∧ ∀ d ∈ r, d ∉ ['\r', '\n', '{', '<', '>'])
    ⟨fun h => ⟨c, r, rfl, h⟩, fun ⟨_, _, e, h⟩ => by cases e; exact h⟩

mutual
def pieceDec (prev : Option Char) (next : Text) : ∀ p : Inlined.Piece, Decidable (p.Ok letter number prev next)
  | .text t => textDec t next
  | .sign s => signDec prev next s
  | .marked m false ps => by
    have := piecesDec prev (m.char :: next) ps
    unfold Piece.Ok
    infer_instance
  | .marked m true ps => by
    have := piecesDec prev (m.char :: m.char :: next) ps
    unfold Piece.Ok
    infer_instance
  | .script up t => by unfold Piece.Ok; infer_instance
  | .ref id l => by unfold Piece.Ok; infer_instance
def piecesDec (prev : Option Char) (next : Text) : ∀ ps : List Inlined.Piece, Decidable (Ok letter number prev next ps)
  | [] => .isTrue trivial
  | p :: ps => by
    have := pieceDec prev (Inlined.written ps ++ next) p
    have := piecesDec (after prev p.written) next ps
    unfold Ok
    infer_instance
end

instance (prev : Option Char) (next : Text) (ps : List Inlined.Piece) : Decidable (Ok letter number prev next ps) := piecesDec prev next ps
instance (t : Text) : Decidable (Quiet t) := by unfold Quiet; infer_instance

end

/-! ### A document -/

/-- Two paragraphs. -/
def sample : List Block :=
  [.para ⟨"Not *all _that glitters_* is gold: H~2~O & mc^2^,".toList, " ".toList⟩ [⟨"it's 1--2 (C) ``mo``no... \"`a`\" -> #x#.".toList, []⟩],
   .blank [], .para ⟨"1 < 2, <<x,see there>> and <<y>>".toList, []⟩ []]

def sampleText : Text := "Not *all _that glitters_* is gold: H~2~O & mc^2^,\nit's 1--2 (C) ``mo``no... \"`a`\" -> #x#.".toList

def samplePieces : List Inlined.Piece :=
  [.text "Not ".toList, .marked .bold false [.text "all ".toList, .marked .italic false [.text "that glitters".toList]], .text " is gold: H".toList,
   .script false "2".toList, .text "O & mc".toList, .script true "2".toList, .text ",\nit".toList, .sign .apostrophe, .text "s 1".toList, .sign .dash, .text "2 ".toList,
   .sign .copyright, .text " ".toList, .marked .mono true [.text "mo".toList], .text "no".toList, .sign .ellipsis, .text " ".toList, .sign .openDouble,
   .text "a".toList, .sign .closeDouble, .text " ".toList, .sign .rightArrow, .text " ".toList, .marked .highlight false [.text "x".toList], .text ".".toList]

/-- How the paragraphs are read. -/
def sampleReading (t : Text) : List Inlined.Piece := if t = sampleText then samplePieces else [.text "1 < 2, ".toList, .ref ['x'] (some "see there".toList), .text " and ".toList, .ref ['y'] none]

theorem sample_content : ∀ l ls, .para l ls ∈ sample → Content Char.isAlpha Char.isDigit (Prose.text (l :: ls)) (sampleReading (Prose.text (l :: ls))) := by
  intro l ls h
  simp only [sample, List.mem_cons, List.not_mem_nil, or_false, Block.para.injEq, reduceCtorEq, false_or] at h
  rcases h with ⟨rfl, rfl⟩ | ⟨rfl, rfl⟩
  · have e : Prose.text [⟨"Not *all _that glitters_* is gold: H~2~O & mc^2^,".toList, " ".toList⟩, ⟨"it's 1--2 (C) ``mo``no... \"`a`\" -> #x#.".toList, []⟩] = sampleText := by
      decide +kernel
    rw [e, show sampleReading sampleText = samplePieces from if_pos rfl]
    exact ⟨by decide +kernel, by decide +kernel, by decide +kernel⟩
  · have e : Prose.text [⟨"1 < 2, <<x,see there>> and <<y>>".toList, []⟩] = "1 < 2, <<x,see there>> and <<y>>".toList := by decide +kernel
    rw [e, show sampleReading "1 < 2, <<x,see there>> and <<y>>".toList = [.text "1 < 2, ".toList, .ref ['x'] (some "see there".toList), .text " and ".toList, .ref ['y'] none] from
      if_neg (by decide +kernel)]
    exact ⟨by decide +kernel, by decide +kernel, by decide +kernel⟩

theorem sample_good : Good (C59.alnum C59.sem) sample := by
  have ok : ∀ l : Line, (l.full.all (fun c => !Grammar.isEol c) && l.text.any (fun c => !C48.isSpace c) && l.trail.all Grammar.isBlank &&
      (l.text.getLast?.all (fun c => !Grammar.isBlank c))) = true → l.Ok := by
    intro l h
    simp only [Bool.and_eq_true] at h
    obtain ⟨⟨⟨h1, h2⟩, h3⟩, h4⟩ := h
    refine ⟨fun c hc => by simpa using List.all_eq_true.mp h1 c hc, ?_, fun c hc => List.all_eq_true.mp h3 c hc, fun c hc => ?_⟩
    · obtain ⟨c, hc, h⟩ := List.any_eq_true.mp h2
      exact ⟨c, hc, by simpa using h⟩
    · rw [hc] at h4; simpa using h4
  have op : ∀ (l : Line) (c : Char) (r : Text), l.full = c :: r → C59.alnum C59.sem c = true →
      (match r with | d :: _ => !(d == '.' || d == ')') | [] => true) = true →
      (¬ [':', ':'] <:+: l.full) → (∀ p ∈ C48.admonitions, ¬ p <+: l.full) → Opens (C59.alnum C59.sem) l := by
    intro l c r h1 h2 h3 h4 h5
    refine ⟨⟨c, r, h1, h2, fun d x _ hd hp => ?_⟩, h4, h5⟩
    obtain ⟨z, rfl⟩ := hp
    rcases hd with rfl | rfl <;> exact absurd (show false = true from h3) (by decide)
  have co : ∀ l : Line, (match l.full with | c :: _ => decide (c ∉ openers) | [] => true) = true → Continues l := by
    intro l h c r e
    rw [e] at h
    exact of_decide_eq_true h
  refine ⟨ok _ (by decide +kernel), ?_, ?_, trivial, by decide, ok _ (by decide +kernel), ?_, by simp, trivial, trivial⟩
  · exact op _ _ _ rfl (by decide) (by decide) (by decide +kernel) (by decide +kernel)
  · intro x hx
    simp only [List.mem_cons, List.not_mem_nil, or_false] at hx
    rcases hx with rfl
    exact ⟨ok _ (by decide +kernel), co _ (by decide +kernel)⟩
  · exact op _ _ _ rfl (by decide) (by decide) (by decide +kernel) (by decide +kernel)

theorem sample_lines : ∀ l ∈ lines sample, C50.Untouched l := by
  have h : (lines sample).all (fun l => l.all (fun c => !Grammar.isEol c) && decide (utf8Len l ≤ 65535) &&
    ["include::", "ifdef::", "ifndef::", "ifeval::[", "endif::"].all (fun k => !k.toList.isPrefixOf l)) = true := by decide +kernel
  exact fun l hl => C50.untouched_of (List.all_eq_true.mp h l hl)

/-- The document and its page. -/
theorem sample_page (R : Refine.Reader) (c : Walk.Ctx) : Nonempty (Stages C50.rawEnv 0 (rootCtx [] []) C59.sem C59.acts () R world c (C51.lib Html.html) C60.plainCfg
    "Not *all _that glitters_* is gold: H~2~O & mc^2^, \nit's 1--2 (C) ``mo``no... \"`a`\" -> #x#.\n\n1 < 2, <<x,see there>> and <<y>>\n".toList
    ("<div class=\"paragraph\">\n<p>Not <strong>all <em>that glitters</em></strong> is gold: H<sub>2</sub>O &amp; mc<sup>2</sup>,\n".toList ++
     "it&#8217;s 1&#8212;&#8203;2 &#169; <code>mo</code>no&#8230;&#8203; &#8220;a&#8221; &#8594; <mark>x</mark>.</p>\n</div>\n".toList ++
     "<div class=\"paragraph\">\n<p>1 &lt; 2, <a href=\"#x\">see there</a> and <a href=\"#y\">[y]</a></p>\n</div>\n".toList)) := by
  have h := text_to_page C50.rawEnv_reads 0 (ctx := rootCtx [] []) rfl C59.sem_code C59.acts_obey () R world_spoken c C60.templates.1 quotes_both.1
    (C60.plainCfg_article _) sample_good sample_lines sample_content
  have e1 : source sample = "Not *all _that glitters_* is gold: H~2~O & mc^2^, \nit's 1--2 (C) ``mo``no... \"`a`\" -> #x#.\n\n1 < 2, <<x,see there>> and <<y>>\n".toList := by decide +kernel
  have e2 : Inlined.page (C51.lib Html.html).lower (Rend.getBoolD C60.plainCfg.attrs "unicode" true) sampleReading sample =
    ("<div class=\"paragraph\">\n<p>Not <strong>all <em>that glitters</em></strong> is gold: H<sub>2</sub>O &amp; mc<sup>2</sup>,\n".toList ++
     "it&#8217;s 1&#8212;&#8203;2 &#169; <code>mo</code>no&#8230;&#8203; &#8220;a&#8221; &#8594; <mark>x</mark>.</p>\n</div>\n".toList ++
     "<div class=\"paragraph\">\n<p>1 &lt; 2, <a href=\"#x\">see there</a> and <a href=\"#y\">[y]</a></p>\n</div>\n".toList) := by decide +kernel
  rw [e1, e2] at h
  exact h

/-! ### Characters with names -/

/-- A name is shown as its characters, or by their numbers; except `two-semicolons`. -/
theorem named_shown : ∀ p ∈ named, p.1 ≠ "two-semicolons" → ∀ c, Rend.renderPredefined p.1 c = .ok (p.2, c) ∨ Rend.renderPredefined p.1 c = .ok (p.2.flatMap entity, c) := by
  have h : ∀ p ∈ named, p.1 ≠ "two-semicolons" → (Rend.predefinedAttributes.get p.1).getD [] = p.2 ∨ (Rend.predefinedAttributes.get p.1).getD [] = p.2.flatMap entity := by
    decide +kernel
  intro p hp hn c
  rcases h p hp hn with h | h
  · left; show Except.ok (_, c) = _; rw [h]
  · right; show Except.ok (_, c) = _; rw [h]

/-- Finding: `{two-semicolons}` shows one (sgml.go:170). -/
theorem finding_two_semicolons : ("two-semicolons", [';', ';']) ∈ named ∧ ∀ c, Rend.renderPredefined "two-semicolons" c = .ok ([';'], c) :=
  ⟨by decide, fun _ => rfl⟩

/-! ### Findings: the parser looks at bytes -/

open Peg Grammar

/-- With the letters of Latin-1. -/
def latin : Sem (Option Char) :=
  { sem Subs.normal with letter := fun c => c.isAlpha || (decide (192 ≤ c.toNat) && decide (c.toNat ≤ 255) && c.toNat != 215 && c.toNat != 247) }

/-- Finding: `*voilà*` is not bold: the last byte of `à` is A0, and as a character this is a space (parser_ext.go:130-138). -/
theorem finding_closing_byte : runV grammar latin acts 100 (.rule R.NormalGroup) "a *voilà* b".toList none "a *voilà* b".toList =
    some (.ok (some 'b') [.slice [.str "a *voilà* b".toList]] []) := by kernel_rfl

/-- Finding: after `é` a mark opens within a word: its last byte is A9, which is not a letter as a character (parser_ext.go:164-181). -/
theorem finding_opening_byte : runV grammar latin acts 100 (.rule R.NormalGroup) "café*x* b".toList none "café*x* b".toList =
    some (.ok (some 'b') [.slice [.str "café".toList, .group (quotedLabel 0) [] [.str "x".toList], .str " b".toList]] []) := by kernel_rfl

/-- Finding: for the same reason the apostrophe after `é` is left as it is, where the one after `l` becomes `’` (parser_ext.go:183-191). -/
theorem finding_apostrophe_byte : runV grammar latin acts 100 (.rule R.NormalGroup) "l'a né'a".toList none "l'a né'a".toList =
    some (.ok (some 'a') [.slice [.str "l".toList, .leaf (signLabel .apostrophe), .str "a né'a".toList]] []) := by kernel_rfl

/-- Finding: special characters in subscripts and superscripts are not escaped (parser.peg:2239-2241, 2266-2268 take them as text): HTML tags pass through to the page. -/
theorem finding_script_raw : runV grammar latin acts 100 (.rule R.NormalGroup) "a~1<b>~".toList none "a~1<b>~".toList =
      some (.ok (some '~') [.slice [.str "a".toList, .group (quotedLabel 4) [] [.str "1<b>".toList]]] []) ∧
    ∀ c, Rend.renderAll (Rend.renderElement (C51.lib Html.html) 9) (inls id [.str "a".toList, .group (quotedLabel 4) [] [.str "1<b>".toList]])
      ⟨[], false, 0, [], [], false, [], c⟩ = .ok ("a<sub>1<b></sub>".toList, ⟨[], false, 0, [], [], false, [], c⟩) := ⟨by kernel_rfl, fun c => by rfl⟩

end C65
end Verif
