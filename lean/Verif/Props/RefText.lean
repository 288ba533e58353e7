import Verif.Spec.Referenced
import Verif.Props.PlainParagraphs
import Verif.Props.Declarations
import Verif.Props.HeaderParse

/-!
# C67 — the inline content of texts with references
-/
namespace Verif
namespace C67
open Peg Grammar Actions Referenced
open PlainText (Plain isSpecial)
open Walk (Any)
open Subs (Sub)
open C58 (Piece)

variable {σ : Type} {S : Sem σ} {A : Peg.Code σ} {t : Text}

/-- The marks a text with references must not have. -/
abbrev others : List Sub := .passthroughs :: later

/-! ### Rules that cannot match -/

theorem never_InlinePassthrough (hS : C45.ChecksProgress S) (ht : Plain others t) : Never grammar S (.rule R.InlinePassthrough) t :=
  C58.dead_rule hS (s := .passthroughs) (by decide) [R.SinglePlusPassthroughPrefix, R.SinglePlusPassthrough, R.TriplePlusPassthroughPrefix,
      R.TriplePlusPassthrough, R.PassthroughMacro, R.InlinePassthrough] [] (fun _ h => nomatch h) (by decide +kernel) (by decide) ht

theorem never_Quote (hS : C45.ChecksProgress S) (ht : Plain others t) : Never grammar S (.rule R.Quote) t :=
  C58.dead_rule hS (s := .quotes) (by decide) [R.QuotedText, R.EscapedQuotedText, R.UnescapedQuotedText, R.SingleQuotedText, R.DoubleQuotedText,
      R.DoubleQuoteBoldTextStartDelimiter, R.DoubleQuoteBoldTextEndDelimiter, R.DoubleQuoteBoldText, R.SingleQuoteBoldTextStartDelimiter,
      R.SingleQuoteBoldTextEndDelimiter, R.SingleQuoteBoldText, R.EscapedBoldText, R.DoubleQuoteItalicTextStartDelimiter,
      R.DoubleQuoteItalicTextEndDelimiter, R.DoubleQuoteItalicText, R.SingleQuoteItalicTextStartDelimiter,
      R.SingleQuoteItalicTextEndDelimiter, R.SingleQuoteItalicText, R.EscapedItalicText, R.DoubleQuoteMonospaceTextStartDelimiter,
      R.DoubleQuoteMonospaceTextEndDelimiter, R.DoubleQuoteMonospaceText, R.SingleQuoteMonospaceTextStartDelimiter,
      R.SingleQuoteMonospaceTextEndDelimiter, R.SingleQuoteMonospaceText, R.EscapedMonospaceText, R.DoubleQuoteMarkedTextStartDelimiter,
      R.DoubleQuoteMarkedTextEndDelimiter, R.DoubleQuoteMarkedText, R.SingleQuoteMarkedTextStartDelimiter,
      R.SingleQuoteMarkedTextEndDelimiter, R.SingleQuoteMarkedText, R.EscapedMarkedText, R.SubscriptText, R.SubscriptTextDelimiter,
      R.EscapedSubscriptText, R.SuperscriptText, R.SuperscriptTextDelimiter, R.EscapedSuperscriptText, R.Quote, R.QuotationMark]
      [] (fun _ h => nomatch h) (by decide +kernel) (by decide) ht

theorem never_Replacement (hS : C45.ChecksProgress S) (ht : Plain others t) : Never grammar S (.rule R.Replacement) t :=
  C58.dead_rule hS (s := .replacements) (by decide) [R.Replacement, R.Symbol, R.QuotationMark, R.Copyright, R.Trademark, R.Registered, R.Ellipsis, R.Mdash,
      R.SingleRightArrow, R.SingleLeftArrow, R.DoubleRightArrow, R.DoubleLeftArrow] [] (fun _ h => nomatch h) (by decide +kernel)
      (by decide) ht

theorem never_InlineMacro (hS : C45.ChecksProgress S) (ht : Plain others t) : Never grammar S (.rule R.InlineMacro) t :=
  C58.dead_rule hS (s := .macros) (by decide) [R.InlineAttributes, R.LongHandAttributes, R.CrossReference, R.InternalCrossReference,
      R.ExternalCrossReference, R.InlineAnchor, R.InlineButton, R.InlineMenu, R.IndexTerm, R.ConcealedIndexTerm, R.InlineImage,
      R.InlineIcon, R.InlineFootnote, R.Link, R.BareURL, R.RelativeLink, R.ExternalLink, R.EmailAddress, R.InlineMacro,
      R.InlinePassthrough, R.InlineUserMacro, R.LocationWithScheme, R.Scheme] [R.InlinePassthrough]
      (fun i hi t ht => by rw [List.mem_singleton.mp hi]; exact never_InlinePassthrough hS ht) (by decide +kernel) (by decide) ht

theorem never_LineBreak (hS : C45.ChecksProgress S) (ht : Plain others t) : Never grammar S (.rule R.LineBreak) t :=
  C58.dead_rule hS (s := .postReplacements) (by decide) [R.LineBreak] [] (fun _ h => nomatch h) (by decide +kernel) (by decide) ht

theorem never_Callout (hE : Enabled S Subs.normal) : Never grammar S (.rule R.Callout) t :=
  yields_rule (yields_act (yields_scope (never_seq (C58.pred_off hE (s := .callouts) (by decide) (by decide)))))

theorem never_TypographicQuote (ht : Plain others t) : Never grammar S (.rule R.TypographicQuote) t := by
  have hlit : ∀ l : List Char, '\uFFFD' ∉ l → ¬ l <:+: t → Never grammar S (.lit l) t := by
    intro l hl hi
    refine yields_lit.to ?_
    cases hm : matchLit l t with
    | none => rfl
    | some u => exact absurd (matchLit_prefix l t u hl hm ▸ (List.prefix_append l u).isInfix) hi
  refine yields_rule (yields_alt_right (yields_act (yields_scope (never_seq (hlit _ (by decide) (ht.1 "\\'" (by decide)))))) ?_)
  have h := hlit ['\''] (by decide) (ht.2 .replacements (by decide) "'" (by decide))
  exact yields_act (yields_scope (C50.never_pred_seq (C50.never_pred_seq (never_seq h))))

/-! ### Characters -/

/-- The characters that open a reference. -/
def opens (c : Char) : Bool := c == '{' || c == '\\'

/-- A piece of text was taken, without the opening of a reference. -/
def Took (t : Text) (o : Option (List Any × Text)) : Prop :=
  ∃ w u v, o = some ([v], u) ∧ t = w ++ u ∧ w ≠ [] ∧ Piece true w v ∧ ∀ c ∈ w, opens c = false

theorem gives_textual {id : Nat} {e : Exp} {w u : Text} (hA : Obeys A) (hw : w ≠ []) (hb : ∀ c ∈ w, isSpecial c = false)
    (ho : ∀ c ∈ w, opens c = false) (hid : (∀ v x, code id v x = some (.text x)) ∨ (∀ v x, code id v x = some (.str x)))
    (he : C58.AtMost S e w u) : Gives grammar S A (.act id e) (w ++ u) (fun o => o = none ∨ Took (w ++ u) o) := by
  refine gives_act (P := fun o => o = none ∨ ∃ v, o = some (v, u)) ?_ (fun _ => .inl rfl) ?_
  · intro st s r hr
    have := he _ _ _ hr.erase
    rw [ResV.out_rest] at this
    cases ho : r.out with
    | none => exact .inl rfl
    | some x =>
      rw [ho] at this
      rcases this with h | h
      · cases h
      · cases h; exact .inr ⟨x.1, rfl⟩
  · rintro s v u' (h | ⟨v', h⟩)
    · cases h
    · cases h
      refine .inr ⟨w, u, _, rfl, rfl, hw, ?_, ho⟩
      rw [C58.span_append]
      have hb' : ∀ c ∈ w, (true && isSpecial c) = false := fun c hc => by rw [hb c hc]; rfl
      rcases hid with h | h
      · rw [hA id s v w _ (h v w)]; exact .text hb'
      · rw [hA id s v w _ (h v w)]; exact .str hb'

variable {c : Char}

theorem alnum_opens (hC : ∀ c, c.toNat < 128 → S.letter c = c.isAlpha ∧ S.number c = c.isDigit) (h : (S.letter c || S.number c) = true) :
    opens c = false ∧ isSpecial c = false := by
  have key : ∀ d : Char, d.toNat < 128 → (d.isAlpha || d.isDigit) = false → c ≠ d := by
    rintro d hd h0 rfl
    rw [(hC c hd).1, (hC c hd).2, h0] at h; cases h
  have h1 := key '{' (by decide) (by decide)
  have h2 := key '\\' (by decide) (by decide)
  have h3 := key '<' (by decide) (by decide)
  have h4 := key '>' (by decide) (by decide)
  have h5 := key '&' (by decide) (by decide)
  simp [opens, isSpecial, h1, h2, h3, h4, h5]

/-- The classes `\pL` and `\pN` on ASCII. -/
def Ascii (S : Sem σ) : Prop := ∀ c, c.toNat < 128 → S.letter c = c.isAlpha ∧ S.number c = c.isDigit

theorem Ascii.classes (h : Ascii S) : C58.Classes S := by
  intro c hc
  simp only [isSpecial, Bool.or_eq_true, beq_iff_eq] at hc
  rcases hc with (rfl | rfl) | rfl <;> exact ⟨(h _ (by decide)).1, (h _ (by decide)).2⟩

theorem gives_InlineText (hA : Obeys A) (hC : Ascii S) :
    Gives grammar S A (.rule R.InlineText) (c :: t) (fun o => o = none ∨ Took (c :: t) o) := by
  let k : Cls := ⟨false, [], [], true, true⟩
  cases hc : k.has S.letter S.number c with
  | false => exact gives_never (yields_rule (yields_act (yields_scope (never_seq (yields_act (C58.never_plus_class hc)))))) (.inl rfl)
  | true =>
    refine gives_rule ?_
    rw [← C58.split_while (k.has S.letter S.number) (c :: t)]
    have hk : ∀ d ∈ (c :: t).takeWhile (k.has S.letter S.number), opens d = false ∧ isSpecial d = false := by
      intro d hd
      have := C58.mem_takeWhile hd
      exact alnum_opens hC ((C59.alnum_cls (S := S) d).symm.trans this)
    refine gives_textual (u := (c :: t).dropWhile (k.has S.letter S.number)) hA (by rw [List.takeWhile_cons_of_pos hc]; exact List.cons_ne_nil _ _)
      (fun d hd => (hk d hd).2) (fun d hd => (hk d hd).1) (.inr (fun _ _ => rfl)) (C58.atMost_scope ?_)
    intro st s r hr
    rcases eval_seq.mp hr with ⟨s1, h1, rfl⟩ | ⟨s1, v, h1, h2⟩
    · exact .inl rfl
    · have hy := yields_act (id := 438) (C58.yields_plus_class (S := S) (t := t) hc)
      rw [← C58.split_while (k.has S.letter S.number) (c :: t)] at hy
      have := hy _ _ _ h1
      cases this
      rw [C58.split_while] at h2
      have h3 := C58.atMost_not (S := S) (a := .notP (.scope (.seq (.lit [':']) (.pred 439)))) (w := [])
        (u := (c :: t).dropWhile (k.has S.letter S.number)) (e := .scope (.seq (.lit ['@']) (.cls k))) ?_ _ _ _ h2
      · exact h3
      · intro st s r hr
        rcases eval_notP.mp hr with ⟨s2, _, rfl⟩ | ⟨s2, v', _, rfl⟩
        · exact .inr rfl
        · exact .inl rfl

theorem blank_opens (h : isBlank c = true) : opens c = false ∧ isSpecial c = false := by
  simp only [isBlank, Bool.or_eq_true, beq_iff_eq] at h
  rcases h with rfl | rfl <;> exact ⟨rfl, rfl⟩

theorem gives_Spaces (hA : Obeys A) : Gives grammar S A (.rule R.Spaces) (c :: t) (fun o => o = none ∨ Took (c :: t) o) := by
  let k : Cls := ⟨false, ['\t', ' '], [], false, false⟩
  cases hc : k.has S.letter S.number c with
  | false => exact gives_never (yields_rule (yields_act (C58.never_plus_class hc))) (.inl rfl)
  | true =>
    refine gives_rule ?_
    rw [← C58.split_while (k.has S.letter S.number) (c :: t)]
    have hk : ∀ d ∈ (c :: t).takeWhile (k.has S.letter S.number), opens d = false ∧ isSpecial d = false := fun d hd =>
      blank_opens (by rw [← has_blank (S := S)]; exact C58.mem_takeWhile hd)
    refine gives_textual (u := (c :: t).dropWhile (k.has S.letter S.number)) hA (by rw [List.takeWhile_cons_of_pos hc]; exact List.cons_ne_nil _ _)
      (fun d hd => (hk d hd).2) (fun d hd => (hk d hd).1) (.inl (fun _ _ => rfl)) ?_
    refine C58.atMost_of_yields ?_
    rw [C58.split_while]
    exact C58.yields_plus_class hc

theorem gives_Newline (hA : Obeys A) : Gives grammar S A (.rule R.Newline) (c :: t) (fun o => o = none ∨ Took (c :: t) o) := by
  have key : ∀ w u : Text, c :: t = w ++ u → w ≠ [] → (∀ d ∈ w, isEol d = true) → newline (c :: t) = some u →
      Gives grammar S A (.rule R.Newline) (c :: t) (fun o => o = none ∨ Took (c :: t) o) := by
    intro w u he hw hd hn
    have hy := C58.yields_newline_body (S := S) (t := c :: t)
    rw [hn] at hy
    rw [he] at hy ⊢
    have hk : ∀ d ∈ w, opens d = false ∧ isSpecial d = false := by
      intro d hm
      have := hd d hm
      simp only [isEol, Bool.or_eq_true, beq_iff_eq] at this
      rcases this with rfl | rfl <;> exact ⟨rfl, rfl⟩
    exact gives_rule (gives_textual hA hw (fun d hd => (hk d hd).2) (fun d hd => (hk d hd).1) (.inl (fun _ _ => rfl)) (fun st s r hr => .inr (hy _ _ _ hr)))
  cases hn : newline (c :: t) with
  | none => exact gives_never (yields_Newline.to hn) (.inl rfl)
  | some u =>
    by_cases h1 : c = '\n'
    · subst h1
      cases hn
      exact key ['\n'] t rfl (by simp) (by simp [isEol]) rfl
    · by_cases h2 : c = '\r'
      · subst h2
        cases t with
        | nil => exact key ['\r'] [] rfl (by simp) (by simp [isEol]) rfl
        | cons d t =>
          by_cases h3 : d = '\n'
          · subst h3
            exact key ['\r', '\n'] t rfl (by simp) (by simp [isEol]) rfl
          · refine key ['\r'] (d :: t) rfl (by simp) (by simp [isEol]) ?_
            rw [newline_lit]; simp [matchLit, Ne.symm h3]
      · rw [newline_lit] at hn
        simp [matchLit, Ne.symm h1, Ne.symm h2] at hn

theorem took_one {o : Option (List Any × Text)} (hc : opens c = false) (h : C58.Took true (c :: t) o)
    (h1 : ∀ v u, o = some (v, u) → u = t) : Took (c :: t) o := by
  obtain ⟨w, u, v, e, e2, hw, hp⟩ := h
  refine ⟨w, u, v, e, e2, hw, hp, ?_⟩
  have := h1 _ _ e
  subst this
  have : w = [c] := by
    have : w ++ u = [c] ++ u := e2.symm
    exact List.append_cancel_right this
  subst this
  intro d hd
  rw [List.mem_singleton.mp hd]; exact hc

theorem gives_Punctuation (hA : Obeys A) (ho : opens c = false) :
    Gives grammar S A (.rule R.Punctuation) (c :: t) (fun o => o = none ∨ Took (c :: t) o) := by
  cases hc : isSpecial c with
  | true => exact gives_never (C58.never_Punctuation hc) (.inl rfl)
  | false =>
    have one : ∀ {p : Char → Prop}, p c → ∀ d ∈ [c], p d := fun h d hd => by rw [List.mem_singleton.mp hd]; exact h
    refine gives_rule (gives_textual (w := [c]) (u := t) hA (List.cons_ne_nil _ _) (one hc) (one ho) (.inl (fun _ _ => rfl)) ?_)
    exact C58.atMost_alt C58.atMost_cls (C58.atMost_alt (C58.atMost_alt (C58.atMost_scope (C58.atMost_pred C58.atMost_char)) C58.atMost_char) (C58.atMost_alt (C58.atMost_scope
        (C58.atMost_pred (C58.atMost_alt C58.atMost_char (C58.atMost_alt C58.atMost_char (C58.atMost_alt C58.atMost_char C58.atMost_char))))) (C58.atMost_scope (C58.atMost_not
        C58.atMost_char))))

theorem gives_AnyChar (hA : Obeys A) (hc : isSpecial c = false) (ho : opens c = false) :
    Gives grammar S A (.rule R.AnyChar) (c :: t) (fun o => o = none ∨ Took (c :: t) o) := by
  have one : ∀ {p : Char → Prop}, p c → ∀ d ∈ [c], p d := fun h d hd => by rw [List.mem_singleton.mp hd]; exact h
  exact gives_rule (gives_textual (w := [c]) (u := t) hA (List.cons_ne_nil _ _) (one hc) (one ho) (.inl (fun _ _ => rfl)) C58.atMost_cls)

theorem gives_SpecialCharacter (hA : Obeys A) (hE : Enabled S Subs.normal) (ho : opens c = false) :
    Gives grammar S A (.rule R.SpecialCharacter) (c :: t) (fun o => o = none ∨ Took (c :: t) o) := by
  intro st s r hr
  rcases C58.gives_SpecialCharacter (b := true) hA hE (by decide) st s r hr with h | ⟨w, u, v, e, e2, hw, hp⟩
  · exact .inl h
  · refine .inr ⟨w, u, v, e, e2, hw, hp, ?_⟩
    have hat : C58.AtMost S (.rule R.SpecialCharacter) [c] t := by
      intro st s r hr
      have hr := eval_rule.mp hr
      have key : C58.AtMost S (.scope (.seq (.pred 381) (.act 382 (.alt (.lit ['<']) (.alt (.lit ['>']) (.lit ['&'])))))) [c] t := by
        refine C58.atMost_scope (C58.atMost_pred ?_)
        intro st s r hr
        rcases eval_act.mp hr with ⟨s1, h1, rfl⟩ | ⟨s1, u, h1, rfl⟩
        · exact .inl rfl
        · have := C58.atMost_alt (S := S) (C58.atMost_char (c := '<') (d := c) (u := t)) (C58.atMost_alt (C58.atMost_char (c := '>')) (C58.atMost_char (c := '&'))) _ _ _ h1
          exact this
      rcases eval_act.mp hr with ⟨s1, h1, rfl⟩ | ⟨s1, u, h1, rfl⟩
      · exact .inl rfl
      · have := key _ _ _ h1
        exact this
    have hu : u = t := by
      have := hat _ _ _ hr.erase
      rw [ResV.out_rest, e] at this
      rcases this with h | h
      · cases h
      · exact Option.some.inj h
    subst hu
    have : w = [c] := List.append_cancel_right (show w ++ u = [c] ++ u from e2.symm)
    subst this
    intro d hd
    rw [List.mem_singleton.mp hd]; exact ho

/-- At a character. -/
theorem gives_char (hS : C45.ChecksProgress S) (hA : Obeys A) (hE : Enabled S Subs.normal) (hC : Ascii S) (ht : Plain others (c :: t))
    (ho : opens c = false) : Gives grammar S A C58.normalElement (c :: t) (fun o => o = none ∨ Took (c :: t) o) := by
  have hne : c ≠ '\\' ∧ c ≠ '{' := by
    simp only [opens, Bool.or_eq_false_iff, beq_eq_false_iff_ne] at ho
    exact ⟨ho.2, ho.1⟩
  refine C58.gives_orElse (gives_InlineText hA hC) (C58.gives_orElse (gives_Spaces hA) (gives_alt_never (never_Replacement hS ht)
    (gives_alt_never (never_TypographicQuote ht) (C58.gives_orElse (gives_Punctuation hA ho) (C58.gives_orElse (gives_Newline hA)
    (gives_alt_never (C50.never_reference hne) (gives_alt_never (never_Quote hS ht) (gives_alt_never (never_InlineMacro hS ht)
    (gives_alt_never (never_Callout hE) ?_)))))))))
  cases hc : isSpecial c with
  | true => exact C58.gives_alt_sure (gives_SpecialCharacter hA hE ho) (C58.sure_SpecialCharacter hE (by decide) hc)
  | false =>
    exact C58.gives_orElse (gives_SpecialCharacter hA hE ho) (gives_alt_never (never_LineBreak hS ht)
      (gives_alt_never (never_InlinePassthrough hS ht) (gives_alt_never (C58.never_ElementPlaceHolder ht) (gives_AnyChar hA hc ho))))

/-! ### References -/

theorem name_text {al : Char → Bool} {n : String} (h : Name al n) : C35.NameText al n.toList := h

theorem exactly_name (hA : Obeys A) {n : Text} {d : Char} {rest st : Text} (h : C35.NameText (C59.alnum S) n)
    (hd : C59.alnum S d = false ∧ d ≠ '-') : Exactly grammar S A st (.rule R.AttributeName) (n ++ d :: rest) [.text n] (d :: rest) := by
  obtain ⟨c, cs, rfl, hc, hcs⟩ := h
  refine exactly_rule (exactly_of_yields (y := .text (c :: cs)) (u := d :: rest) (yields_scope (yields_seq (u := cs ++ d :: rest) (yields_cls ?_) ?_)) (fun s v => ?_))
  · have : (Cls.mk false ['_'] [] true true).has S.letter S.number c = (C59.alnum S c || decide (c = '_')) := by
      simp [Cls.has, C59.alnum]; ac_rfl
    rw [this]; simpa using hc
  · have e : (Cls.mk false ['-'] [] true true).has S.letter S.number = (fun c => C59.alnum S c || decide (c = '-')) := by
      funext x; simp [Cls.has, C59.alnum]; ac_rfl
    have hy := yields_star_cls (G := grammar) (S := S) (c := Cls.mk false ['-'] [] true true) (cs ++ d :: rest)
    rw [e] at hy
    refine hy.to ?_
    rw [List.dropWhile_append_of_pos (fun y hy => by simpa using hcs y hy), List.dropWhile_cons_of_neg (by simp [hd])]
  · rw [C58.span_append]; exact hA 54 s v _ _ rfl
theorem exactly_lit {l u st : Text} (hl : matchLit l (l ++ u) = some u) : Exactly grammar S A st (.lit l) (l ++ u) [.text l] u := by
  have := Peg.exactly_lit (G := grammar) (S := S) (A := A) (st := st) hl
  rwa [C58.span_append] at this

theorem exactly_char {d : Char} {u st : Text} (hd : d ≠ '\uFFFD' := by decide) : Exactly grammar S A st (.lit [d]) (d :: u) [.text [d]] u := by
  refine exactly_lit (l := [d]) (u := u) ?_
  show (if d = d then _ else _) = _
  rw [if_pos rfl]; rfl

/-- The value of a part of a text. -/
def value : Tok → Any
  | .char c => if isSpecial c then .special [c] else .str [c]
  | .ref n => .ref n
  | .kept n => .str ("{".toList ++ n.toList ++ "}".toList)
  | .count n => .counter n none false
  | .step n => .counter n none true

/-- A character that ends a name. -/
theorem ends_name (hC : Ascii S) {d : Char} (hd : d.toNat < 128) (h : (d.isAlpha || d.isDigit) = false) (h' : d ≠ '-') :
    C59.alnum S d = false ∧ d ≠ '-' := by
  refine ⟨?_, h'⟩
  unfold C59.alnum
  rw [(hC d hd).1, (hC d hd).2, h]

theorem ascii_name (hC : Ascii S) {n : Text} (h0 : n ≠ []) (h : n.all (fun d => decide (d.toNat < 128) && (d.isAlpha || d.isDigit)) = true) :
    C35.NameText (C59.alnum S) n := by
  have key : ∀ d ∈ n, C59.alnum S d = true := by
    intro d hd
    have := List.all_eq_true.mp h d hd
    rw [Bool.and_eq_true] at this
    have hd := of_decide_eq_true this.1
    unfold C59.alnum
    rw [(hC d hd).1, (hC d hd).2, this.2]
  obtain ⟨c, cs, rfl⟩ := List.exists_cons_of_ne_nil h0
  exact ⟨c, cs, rfl, .inl (key c List.mem_cons_self), fun d hd => .inl (key d (List.mem_cons_of_mem _ hd))⟩

theorem predefined_eq : characters = predefined := rfl

/-- A reference that is not written. -/
theorem never_value (hA : Obeys A) (hC : Ascii S) {m : Text} {d : Char} {u : Text} (hm : C35.NameText (C59.alnum S) m) (hd : C59.alnum S d = false ∧ d ≠ '-')
    (hne : d ≠ '}') : Never grammar S (.rule R.AttributeReferenceValue) ('{' :: (m ++ d :: u)) := by
  refine yields_rule (yields_alt_right (yields_act (yields_scope (never_seq (C50.never_lit_head (by decide) (by decide))))) ?_)
  refine yields_act (yields_scope (yields_seq (u := m ++ d :: u) (yields_lit.to rfl) ?_))
  have hy := C50.yields_pName (S := S) (m ++ d :: u)
  rw [C35.pName_complete (C50.alnum S) m d u hm hd] at hy
  exact yields_seq hy (C50.never_lit_head (by decide) hne)

theorem app3 (a b c d : Text) : a ++ b ++ c ++ d = a ++ (b ++ (c ++ d)) := by rw [List.append_assoc, List.append_assoc]

theorem reference (hA : Obeys A) (hE : ∀ s st t, (S.pred 102 s st t).1 = true) (hC : Ascii S) {x : Tok} (hx : x.Ok (C59.alnum S)) (hn : ∀ c, x ≠ .char c) {u st : Text} :
    Exactly grammar S A st (.rule R.AttributeReference) (x.written ++ u) [value x] u := by
  have hp : ∀ {st t : Text}, Exactly grammar S A st (.pred 102) t [.nil] t := fun {st t} => exactly_pred (fun s => hE s _ _)
  have hend := ends_name hC (d := '}') (by decide) (by decide) (by decide)
  have hcolon := ends_name hC (d := ':') (by decide) (by decide) (by decide)
  have key : ∀ {v}, (∀ st, Exactly grammar S A st (.alt (.rule R.AttributeReferenceValue) (.rule R.CounterReference)) (x.written ++ u) [v] u) →
      Exactly grammar S A st (.rule R.AttributeReference) (x.written ++ u) [v] u := fun h =>
    exactly_rule (exactly_act (exactly_scope (exactly_seq hp (h _))) (fun s => hA 103 s _ _ _ rfl))
  refine key (fun st => ?_)
  have hstart : Never grammar S (.rule R.CounterStart) ('}' :: u) :=
    yields_rule (yields_act (yields_scope (never_seq (C50.never_lit_head (by decide) (by decide)))))
  cases x with
  | char c => exact absurd rfl (hn c)
  | ref n =>
    have e : (Tok.ref n).written ++ u = '{' :: (n.toList ++ '}' :: u) := app3 _ _ _ _
    rw [e]
    refine exactly_alt_left (exactly_rule (exactly_alt_right (yields_act (yields_scope (never_seq (C50.never_lit_head (by decide) (by decide))))) ?_))
    refine exactly_act (exactly_scope (exactly_seq exactly_char (exactly_seq (exactly_name hA (name_text hx.1) hend) exactly_char))) (fun s => ?_)
    refine hA 105 s _ _ _ ?_
    show newReference n.toList = _
    unfold newReference
    rw [String.ofList_toList, if_neg (by rw [← predefined_eq]; exact hx.2)]; rfl
  | kept n =>
    have e : (Tok.kept n).written ++ u = '\\' :: '{' :: (n.toList ++ '}' :: u) := app3 _ _ _ _
    have es : span ('\\' :: '{' :: (n.toList ++ '}' :: u)) u = (Tok.kept n).written := by rw [← e, C58.span_append]
    rw [e]
    refine exactly_alt_left (exactly_rule (exactly_alt_left ?_))
    refine exactly_act (exactly_scope (exactly_seq exactly_char (exactly_seq exactly_char (exactly_seq (exactly_name hA (name_text hx) hend) exactly_char)))) (fun s => ?_)
    rw [es]
    exact hA 104 s _ _ _ rfl
  | count n =>
    have e : (Tok.count n).written ++ u = "{counter:".toList ++ (n.toList ++ '}' :: u) := app3 _ _ _ _
    rw [e]
    refine exactly_alt_right (never_value hA hC (m := "counter".toList) (ascii_name hC (by decide) (by decide)) hcolon (by decide)) ?_
    refine exactly_rule (exactly_alt_left (exactly_rule ?_))
    refine exactly_act (exactly_scope (exactly_seq (exactly_lit rfl) (exactly_seq (exactly_name hA (name_text hx) hend) (exactly_seq (exactly_opt_never hstart) exactly_char)))) (fun s => ?_)
    refine (hA 106 s _ _ _ rfl).trans ?_
    rw [String.ofList_toList]; rfl
  | step n =>
    have e : (Tok.step n).written ++ u = "{counter2:".toList ++ (n.toList ++ '}' :: u) := app3 _ _ _ _
    rw [e]
    refine exactly_alt_right (never_value hA hC (m := "counter2".toList) (ascii_name hC (by decide) (by decide)) hcolon (by decide)) ?_
    refine exactly_rule (exactly_alt_right (yields_rule (yields_act (yields_scope (never_seq (yields_lit.to rfl))))) (exactly_rule ?_))
    refine exactly_act (exactly_scope (exactly_seq (exactly_lit rfl) (exactly_seq (exactly_name hA (name_text hx) hend) (exactly_seq (exactly_opt_never hstart) exactly_char)))) (fun s => ?_)
    refine (hA 107 s _ _ _ rfl).trans ?_
    rw [String.ofList_toList]; rfl

/-- The alternatives before the references, at a reference. -/
theorem never_Punctuation (h : opens c = true) : Never grammar S (.rule R.Punctuation) (c :: t) := by
  simp only [opens, Bool.or_eq_true, beq_iff_eq] at h
  have hl : ∀ x : Char, x ≠ c → Never grammar S (.lit [x]) (c :: t) := fun x hx => yields_lit.to (by simp [matchLit, hx])
  have hp : ∀ {id : Nat} {e : Exp}, Never grammar S e (c :: t) → Never grammar S (.scope (.seq (.pred id) e)) (c :: t) := fun he =>
    yields_scope (C50.never_pred_seq he)
  have hne : ∀ x ∈ ['.', ',', ';', '?', ')', '!', '/', ':', '"', '\'', '@', '=', '-', '[', ']', '*', '_', '`', '#', '('], x ≠ c := by
    rcases h with rfl | rfl <;> decide
  refine yields_rule (yields_act (yields_alt_right (yields_cls_no ?_) (yields_alt_right (yields_alt_right (hp (hl _ (hne _ (by decide))))
    (hl _ (hne _ (by decide)))) (yields_alt_right (hp (yields_alt_right (hl _ (hne _ (by decide))) (yields_alt_right (hl _ (hne _ (by decide)))
    (yields_alt_right (hl _ (hne _ (by decide))) (hl _ (hne _ (by decide))))))) (yields_scope (never_seq (hl _ (hne _ (by decide)))))))))
  rcases h with rfl | rfl <;> rfl

theorem opening (x : Tok) (hn : ∀ c, x ≠ .char c) : ∃ c w, x.written = c :: w ∧ opens c = true := by
  cases x with
  | char c => exact absurd rfl (hn c)
  | ref n => exact ⟨_, _, rfl, rfl⟩
  | kept n => exact ⟨_, _, rfl, rfl⟩
  | count n => exact ⟨_, _, rfl, rfl⟩
  | step n => exact ⟨_, _, rfl, rfl⟩

theorem exactly_reference (hS : C45.ChecksProgress S) (hA : Obeys A) (hE : Enabled S Subs.normal) (hC : Ascii S) {x : Tok} (hx : x.Ok (C59.alnum S)) (hn : ∀ c, x ≠ .char c) {u st : Text}
    (ht : Plain others (x.written ++ u)) : Exactly grammar S A st C58.normalElement (x.written ++ u) [value x] u := by
  have hr := fun st => reference (st := st) (u := u) hA
    (fun s st t => by rw [hE _ (show (102, Sub.attributes) ∈ guards by decide)]; decide) hC hx hn
  have h1 := never_Replacement hS ht
  have h2 := never_TypographicQuote (S := S) ht
  obtain ⟨c, w, hw, ho⟩ := opening x hn
  rw [hw] at h1 h2 hr ⊢
  have hal : (Cls.mk false [] [] true true).has S.letter S.number c = false := by
    rw [C59.alnum_cls]
    cases h : C59.alnum S c with
    | false => rfl
    | true => rw [(alnum_opens hC h).1] at ho; cases ho
  have hb : (Cls.mk false ['\t', ' '] [] false false).has S.letter S.number c = false := by
    rw [has_blank]
    cases h : isBlank c with
    | false => rfl
    | true => rw [(blank_opens h).1] at ho; cases ho
  have hnl : newline (c :: (w ++ u)) = none := by
    simp only [opens, Bool.or_eq_true, beq_iff_eq] at ho
    rcases ho with rfl | rfl <;> rfl
  refine exactly_alt_right (yields_rule (yields_act (yields_scope (never_seq (yields_act (C58.never_plus_class hal)))))) ?_
  refine exactly_alt_right (yields_rule (yields_act (C58.never_plus_class hb))) ?_
  refine exactly_alt_right h1 (exactly_alt_right h2 (exactly_alt_right (never_Punctuation ho) (exactly_alt_right (yields_Newline.to hnl) (exactly_alt_left (hr _)))))

end C67
end Verif
