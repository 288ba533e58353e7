import Verif.Model.Actions
import Verif.Spec.PlainText
import Verif.Proofs.Dead
import Verif.Proofs.Values
import Verif.Props.Inline
import Verif.Proofs.KernelRfl

/-!
# C58 — Text without markup is left as it is

Whatever substitutions are enabled for a piece of text, the parts of it that none of them asks for are left as they are: the inline content of
a text in which no mark of an enabled substitution occurs is the text itself, with the special characters set apart if they are to be replaced.
-/
namespace Verif
namespace C58
open Peg Grammar Actions PlainText
open Walk (Any)
open Subs (Sub)

variable {σ : Type} {S : Sem σ} {A : Peg.Code σ} {E : List Sub} {t : Text}

/-! ### Rules that cannot match -/

theorem plain_suffix {u : Text} (h : Plain E t) (hu : u <:+ t) : Plain E u :=
  ⟨fun m hm hi => h.1 m hm (hi.trans hu.isInfix), fun s hs m hm hi => h.2 s hs m hm (hi.trans hu.isInfix)⟩

/-- The strings of a substitution. -/
def strings (s : Sub) : List (List Char) := (marks s).map String.toList

theorem plain_free {s : Sub} (h : Plain E t) (hs : s ∈ E) : Free (strings s) t := by
  intro f hf
  obtain ⟨m, hm, rfl⟩ := List.mem_map.mp hf
  exact h.2 s hs m hm

/-- A table of dead rules, checked. -/
theorem dead_rule (hS : C45.ChecksProgress S) {s : Sub} (hs : s ∈ E) (T K : List Nat)
    (hK : ∀ i ∈ K, ∀ t, Plain E t → Never grammar S (.rule i) t)
    (hT : T.all (fun i => K.contains i || dead (strings s) [] (fun j => T.contains j) (grammar i)) = true) {i : Nat} (hi : T.contains i = true)
    (ht : Plain E t) : Never grammar S (.rule i) t := by
  intro st x r ⟨n, h⟩
  refine dead_never hS (strings s) [] (fun j => T.contains j) K (fun _ h => nomatch h) (Plain E) (fun t h => plain_free h hs)
    (fun t u h hu => plain_suffix h hu) hK ?_ n (.rule i) st x t r hi ht h
  intro i hi
  have := List.all_eq_true.mp hT i (by simpa using hi)
  simpa [Bool.or_eq_true] using this

/-- A rule that begins with the check whether a substitution is enabled. -/
theorem pred_off (hE : Enabled S E) {id : Nat} {s : Sub} (hg : (id, s) ∈ guards) (hs : s ∉ E) : Never grammar S (.pred id) t := by
  intro st x r h
  rw [eval_pred.mp h]
  have := hE _ hg x st t
  cases hp : S.pred id x st t with
  | mk b x' =>
    rw [hp] at this
    have hb : b = false := by simpa [hs] using this
    subst hb; rfl

theorem never_AttributeReference (hS : C45.ChecksProgress S) (hE : Enabled S E) (ht : Plain E t) :
    Never grammar S (.rule R.AttributeReference) t := by
  by_cases hs : Sub.attributes ∈ E
  · exact dead_rule hS hs [R.AttributeReference, R.AttributeReferenceValue, R.CounterReference,
      R.CounterSubstitution1, R.CounterSubstitution2] [] (fun _ h => nomatch h) (by decide +kernel) (by decide) ht
  · exact yields_rule (yields_act (yields_scope (never_seq (pred_off hE (by decide) hs))))

theorem never_InlinePassthrough (hS : C45.ChecksProgress S) (hE : Enabled S E) (ht : Plain E t) :
    Never grammar S (.rule R.InlinePassthrough) t := by
  by_cases hs : Sub.passthroughs ∈ E
  · exact dead_rule hS hs [R.SinglePlusPassthroughPrefix, R.SinglePlusPassthrough, R.TriplePlusPassthroughPrefix,
      R.TriplePlusPassthrough, R.PassthroughMacro, R.InlinePassthrough] [] (fun _ h => nomatch h) (by decide +kernel) (by decide) ht
  · exact yields_rule (yields_act (yields_scope (never_seq (pred_off hE (by decide) hs))))

theorem never_Quote (hS : C45.ChecksProgress S) (hE : Enabled S E) (ht : Plain E t) : Never grammar S (.rule R.Quote) t := by
  by_cases hs : Sub.quotes ∈ E
  · exact dead_rule hS hs [R.QuotedText, R.EscapedQuotedText, R.UnescapedQuotedText, R.SingleQuotedText, R.DoubleQuotedText,
      R.DoubleQuoteBoldTextStartDelimiter, R.DoubleQuoteBoldTextEndDelimiter, R.DoubleQuoteBoldText, R.SingleQuoteBoldTextStartDelimiter,
      R.SingleQuoteBoldTextEndDelimiter, R.SingleQuoteBoldText, R.EscapedBoldText, R.DoubleQuoteItalicTextStartDelimiter,
      R.DoubleQuoteItalicTextEndDelimiter, R.DoubleQuoteItalicText, R.SingleQuoteItalicTextStartDelimiter,
      R.SingleQuoteItalicTextEndDelimiter, R.SingleQuoteItalicText, R.EscapedItalicText, R.DoubleQuoteMonospaceTextStartDelimiter,
      R.DoubleQuoteMonospaceTextEndDelimiter, R.DoubleQuoteMonospaceText, R.SingleQuoteMonospaceTextStartDelimiter,
      R.SingleQuoteMonospaceTextEndDelimiter, R.SingleQuoteMonospaceText, R.EscapedMonospaceText, R.DoubleQuoteMarkedTextStartDelimiter,
      R.DoubleQuoteMarkedTextEndDelimiter, R.DoubleQuoteMarkedText, R.SingleQuoteMarkedTextStartDelimiter,
      R.SingleQuoteMarkedTextEndDelimiter, R.SingleQuoteMarkedText, R.EscapedMarkedText, R.SubscriptText, R.SubscriptTextDelimiter,
      R.EscapedSubscriptText, R.SuperscriptText, R.SuperscriptTextDelimiter, R.EscapedSuperscriptText, R.Quote, R.QuotationMark]
      [] (fun _ h => nomatch h) (by decide +kernel) (by decide) ht
  · exact yields_rule (yields_scope (never_seq (pred_off hE (by decide) hs)))

theorem never_Replacement (hS : C45.ChecksProgress S) (hE : Enabled S E) (ht : Plain E t) :
    Never grammar S (.rule R.Replacement) t := by
  by_cases hs : Sub.replacements ∈ E
  · exact dead_rule hS hs [R.Replacement, R.Symbol, R.QuotationMark, R.Copyright, R.Trademark, R.Registered, R.Ellipsis, R.Mdash,
      R.SingleRightArrow, R.SingleLeftArrow, R.DoubleRightArrow, R.DoubleLeftArrow] [] (fun _ h => nomatch h) (by decide +kernel)
      (by decide) ht
  · exact yields_rule (yields_act (yields_scope (never_seq (pred_off hE (by decide) hs))))

theorem never_InlineMacro (hS : C45.ChecksProgress S) (hE : Enabled S E) (ht : Plain E t) :
    Never grammar S (.rule R.InlineMacro) t := by
  by_cases hs : Sub.macros ∈ E
  · exact dead_rule hS hs [R.InlineAttributes, R.LongHandAttributes, R.CrossReference, R.InternalCrossReference,
      R.ExternalCrossReference, R.InlineAnchor, R.InlineButton, R.InlineMenu, R.IndexTerm, R.ConcealedIndexTerm, R.InlineImage,
      R.InlineIcon, R.InlineFootnote, R.Link, R.BareURL, R.RelativeLink, R.ExternalLink, R.EmailAddress, R.InlineMacro,
      R.InlinePassthrough, R.InlineUserMacro, R.LocationWithScheme, R.Scheme] [R.InlinePassthrough]
      (fun i hi t ht => by rw [List.mem_singleton.mp hi]; exact never_InlinePassthrough hS hE ht) (by decide +kernel) (by decide) ht
  · exact yields_rule (yields_act (yields_scope (never_seq (pred_off hE (by decide) hs))))

theorem never_LineBreak (hS : C45.ChecksProgress S) (hE : Enabled S E) (ht : Plain E t) : Never grammar S (.rule R.LineBreak) t := by
  by_cases hs : Sub.postReplacements ∈ E
  · exact dead_rule hS hs [R.LineBreak] [] (fun _ h => nomatch h) (by decide +kernel) (by decide) ht
  · exact yields_rule (yields_act (yields_scope (never_seq (pred_off hE (by decide) hs))))

theorem never_Callout (hE : Enabled S E) (ht : Plain E t) : Never grammar S (.rule R.Callout) t := by
  by_cases hs : Sub.callouts ∈ E
  · refine yields_rule (yields_act (yields_scope ?_))
    intro st x r h
    rcases eval_seq.mp h with ⟨_, _, rfl⟩ | ⟨s1, u, h1, h2⟩
    · rfl
    have hu : u = t := by
      rw [eval_pred] at h1
      cases hp : S.pred 284 x st t with
      | mk b x' => rw [hp] at h1; cases b <;> cases h1; rfl
    subst hu
    rcases eval_seq.mp h2 with ⟨_, _, rfl⟩ | ⟨s2, v, h3, h4⟩
    · rfl
    have hv : u = '<' :: v := by
      have := eval_lit.mp h3
      cases hm : matchLit ['<'] u with
      | none => rw [hm] at this; cases this
      | some w => rw [hm] at this; cases this; exact matchLit_prefix ['<'] u v (by decide) hm
    rcases eval_seq.mp h4 with ⟨_, _, rfl⟩ | ⟨s3, w, h5, h6⟩
    · rfl
    exfalso
    have hn : Never grammar S (.act 285 (.plus (.cls ⟨false, [], [('0', '9')], false, false⟩))) v := by
      refine yields_act (never_plus ?_)
      cases v with
      | nil => exact yields_cls_nil
      | cons d v =>
        refine yields_cls_no ?_
        cases hd : (Cls.mk false [] [('0', '9')] false false).has S.letter S.number d with
        | false => rfl
        | true =>
          exfalso
          have hd' : '0' ≤ d ∧ d ≤ '9' := by simpa [Cls.has] using hd
          have hmem : ['<', d] ∈ strings .callouts := by
            have h0 : 48 ≤ d.toNat ∧ d.toNat ≤ 57 := hd'
            have : d = Char.ofNat d.toNat := (Char.ofNat_toNat d).symm
            have hk : d.toNat = 48 ∨ d.toNat = 49 ∨ d.toNat = 50 ∨ d.toNat = 51 ∨ d.toNat = 52 ∨ d.toNat = 53 ∨ d.toNat = 54 ∨
              d.toNat = 55 ∨ d.toNat = 56 ∨ d.toNat = 57 := by omega
            rcases hk with h | h | h | h | h | h | h | h | h | h <;> (rw [h] at this; subst this; decide)
          exact plain_free ht hs _ hmem ⟨[], v, by rw [hv]; rfl⟩
    cases hn _ _ _ h5
  · exact yields_rule (yields_act (yields_scope (never_seq (pred_off hE (by decide) hs))))

theorem never_ElementPlaceHolder (ht : Plain E t) : Never grammar S (.rule R.ElementPlaceHolder) t := by
  refine yields_rule (yields_act (yields_scope ?_))
  cases t with
  | nil => exact yields_seq (u := []) (yields_rule (yields_lit.to rfl)) (never_seq (yields_act (never_plus yields_cls_nil)))
  | cons c t =>
    refine never_seq (yields_rule (yields_lit.to ?_))
    have hc : ¬ '\uFFFD' = c := fun e => ht.1 "\uFFFD" (by decide) ⟨[], t, by rw [← e]; rfl⟩
    show matchLit ['\uFFFD'] (c :: t) = none
    unfold matchLit
    rw [if_neg hc]

theorem never_TypographicQuote (hE : Enabled S E) (ht : Plain E t) : Never grammar S (.rule R.TypographicQuote) t := by
  have hlit : ∀ l : List Char, '\uFFFD' ∉ l → ¬ l <:+: t → Never grammar S (.lit l) t := by
    intro l hl hi
    refine yields_lit.to ?_
    cases hm : matchLit l t with
    | none => rfl
    | some u => exact absurd (matchLit_prefix l t u hl hm ▸ (List.prefix_append l u).isInfix) hi
  refine yields_rule (yields_alt_right (yields_act (yields_scope (never_seq (hlit _ (by decide) (ht.1 "\\'" (by decide)))))) ?_)
  refine yields_act (yields_scope ?_)
  by_cases hs : Sub.replacements ∈ E
  · have h := hlit ['\''] (by decide) (ht.2 _ hs "'" (by decide))
    intro st x r hr
    rcases eval_seq.mp hr with ⟨_, _, rfl⟩ | ⟨s1, u, h1, h2⟩
    · rfl
    rcases eval_seq.mp h2 with ⟨_, _, rfl⟩ | ⟨s2, v, h3, h4⟩
    · rfl
    have hpred : ∀ {id : Nat} {st : Text} {x x' : σ} {t u : Text}, Eval grammar S (.pred id) st x t (.ok x' u) → u = t := by
      intro id st x x' t u h
      rw [eval_pred] at h
      cases hp : S.pred id x st t with
      | mk b y => rw [hp] at h; cases b <;> cases h; rfl
    rw [hpred h3, hpred h1] at h4
    exact never_seq h _ _ _ h4
  · exact never_seq (pred_off hE (by decide) hs)

/-! ### The elements that are found -/

/-- The value `v` stands for the text `w`. -/
inductive Piece (b : Bool) : Text → Any → Prop
  | text {w : Text} (h : ∀ c ∈ w, (b && isSpecial c) = false) : Piece b w (.text w)
  | str {w : Text} (h : ∀ c ∈ w, (b && isSpecial c) = false) : Piece b w (.str w)
  | special {c : Char} (h : (b && isSpecial c) = true) : Piece b [c] (.special [c])

/-- The beginning of `t` was taken as one piece. -/
def Took (b : Bool) (t : Text) (o : Option (List Any × Text)) : Prop :=
  ∃ w u v, o = some ([v], u) ∧ t = w ++ u ∧ w ≠ [] ∧ Piece b w v

theorem span_append (w u : Text) : span (w ++ u) u = w := by simp [span]

/-- An expression that takes at most the characters `w` at the beginning of the text. -/
def AtMost (S : Sem σ) (e : Exp) (w u : Text) : Prop := ∀ st s r, Eval grammar S e st s (w ++ u) r → r.rest = none ∨ r.rest = some u

/-- An action whose value is the text. -/
theorem gives_textual {id : Nat} {e : Exp} {w u : Text} {b : Bool} (hA : Obeys A) (hw : w ≠ []) (hb : ∀ c ∈ w, (b && isSpecial c) = false)
    (hid : (∀ v x, code id v x = some (.text x)) ∨ (∀ v x, code id v x = some (.str x))) (he : AtMost S e w u) :
    Gives grammar S A (.act id e) (w ++ u) (fun o => o = none ∨ Took b (w ++ u) o) := by
  refine gives_act (P := fun o => o = none ∨ ∃ v, o = some (v, u)) ?_ (fun _ => .inl rfl) ?_
  · intro st s r hr
    have := he _ _ _ hr.erase
    rw [ResV.out_rest] at this
    cases ho : r.out with
    | none => exact .inl rfl
    | some x =>
      rw [ho] at this
      rcases this with h | h
      · cases h
      · cases h; exact .inr ⟨x.1, rfl⟩
  · rintro s v u' (h | ⟨v', h⟩)
    · cases h
    · cases h
      refine .inr ⟨w, u, _, rfl, rfl, hw, ?_⟩
      rw [span_append]
      rcases hid with h | h
      · rw [hA id s v w _ (h v w)]; exact .text hb
      · rw [hA id s v w _ (h v w)]; exact .str hb

theorem atMost_of_yields {e : Exp} {w u : Text} (h : Yields grammar S e (w ++ u) (some u)) : AtMost S e w u :=
  fun st s r hr => .inr (h st s r hr)

theorem atMost_of_never {e : Exp} {w u : Text} (h : Never grammar S e (w ++ u)) : AtMost S e w u :=
  fun st s r hr => .inl (h st s r hr)

theorem atMost_alt {a b : Exp} {w u : Text} (ha : AtMost S a w u) (hb : AtMost S b w u) : AtMost S (.alt a b) w u := by
  intro st s r h
  rcases eval_alt.mp h with ⟨s1, h1, h2⟩ | ⟨s1, v, h1, rfl⟩
  · exact hb _ _ _ h2
  · exact ha _ _ _ h1

theorem atMost_scope {e : Exp} {w u : Text} (h : AtMost S e w u) : AtMost S (.scope e) w u := by
  intro st s r hr
  rcases eval_scope.mp hr with ⟨s1, h1, rfl⟩ | ⟨s1, v, h1, rfl⟩
  · exact .inl rfl
  · exact h _ _ _ h1

theorem atMost_pred {e : Exp} {w u : Text} {id : Nat} (h : AtMost S e w u) : AtMost S (.seq (.pred id) e) w u := by
  intro st s r hr
  rcases eval_seq.mp hr with ⟨s1, h1, rfl⟩ | ⟨s1, v, h1, h2⟩
  · exact .inl rfl
  · have hv : v = w ++ u := by
      rw [eval_pred] at h1
      cases hp : S.pred id s st (w ++ u) with
      | mk b y => rw [hp] at h1; cases b <;> cases h1; rfl
    exact h _ _ _ (hv ▸ h2)

/-- Something, then an assertion. -/
theorem atMost_not {a e : Exp} {w u : Text} (h : AtMost S a w u) : AtMost S (.seq a (.notP e)) w u := by
  intro st s r hr
  rcases eval_seq.mp hr with ⟨s1, h1, rfl⟩ | ⟨s1, v, h1, h2⟩
  · exact .inl rfl
  · rcases h _ _ _ h1 with h | h
    · cases h
    · cases h
      rcases eval_notP.mp h2 with ⟨s2, _, rfl⟩ | ⟨s2, v', _, rfl⟩
      · exact .inr rfl
      · exact .inl rfl

theorem atMost_char {c d : Char} {u : Text} (hc : c ≠ '\uFFFD' := by decide) : AtMost S (.lit [c]) [d] u := by
  intro st s r hr
  have := eval_lit.mp hr
  have hm : matchLit [c] ([d] ++ u) = if c = d then some u else none := rfl
  rw [this, hm]
  by_cases h : c = d
  · rw [if_pos h]; exact .inr rfl
  · rw [if_neg h]; exact .inl rfl

theorem atMost_cls {c : Cls} {d : Char} {u : Text} : AtMost S (.cls c) [d] u := by
  intro st s r hr
  rw [eval_cls_cons.mp hr]
  split
  · exact .inr rfl
  · exact .inl rfl

/-- Letters and numbers are not special characters. -/
def Classes (S : Sem σ) : Prop := ∀ c, isSpecial c = true → S.letter c = false ∧ S.number c = false

theorem split_while (p : Char → Bool) (t : Text) : t.takeWhile p ++ t.dropWhile p = t := List.takeWhile_append_dropWhile

theorem mem_takeWhile {p : Char → Bool} : ∀ {t : Text} {c : Char}, c ∈ t.takeWhile p → p c = true
  | x :: t, c, h => by
    cases hx : p x with
    | false => rw [List.takeWhile_cons_of_neg (by simp [hx])] at h; cases h
    | true =>
      rw [List.takeWhile_cons_of_pos hx] at h
      rcases List.mem_cons.mp h with rfl | h
      · exact hx
      · exact mem_takeWhile h

/-- A longest prefix in a class. -/
theorem yields_plus_class {k : Cls} {c : Char} (hc : k.has S.letter S.number c = true) :
    Yields grammar S (.plus (.cls k)) (c :: t) (some ((c :: t).dropWhile (k.has S.letter S.number))) := by
  rw [List.dropWhile_cons_of_pos hc]
  exact yields_plus_step (yields_cls hc) (yields_star_cls t)

theorem never_plus_class {k : Cls} {c : Char} (hc : k.has S.letter S.number c = false) : Never grammar S (.plus (.cls k)) (c :: t) :=
  never_plus (yields_cls_no hc)

variable {b : Bool} {c : Char}

theorem gives_InlineText (hA : Obeys A) (hC : Classes S) :
    Gives grammar S A (.rule R.InlineText) (c :: t) (fun o => o = none ∨ Took b (c :: t) o) := by
  let k : Cls := ⟨false, [], [], true, true⟩
  cases hc : k.has S.letter S.number c with
  | false => exact gives_never (yields_rule (yields_act (yields_scope (never_seq (yields_act (never_plus_class hc)))))) (.inl rfl)
  | true =>
    refine gives_rule ?_
    rw [← split_while (k.has S.letter S.number) (c :: t)]
    refine gives_textual (u := (c :: t).dropWhile (k.has S.letter S.number)) hA (by rw [List.takeWhile_cons_of_pos hc]; exact List.cons_ne_nil _ _) ?_ (.inr (fun _ _ => rfl)) (atMost_scope ?_)
    · intro d hd
      have hk := mem_takeWhile hd
      cases hs : isSpecial d with
      | false => simp
      | true =>
        obtain ⟨h1, h2⟩ := hC d hs
        simp [k, Cls.has, h1, h2] at hk
    · intro st s r hr
      rcases eval_seq.mp hr with ⟨s1, h1, rfl⟩ | ⟨s1, v, h1, h2⟩
      · exact .inl rfl
      · have hy := yields_act (id := 438) (yields_plus_class (S := S) (t := t) hc)
        rw [← split_while (k.has S.letter S.number) (c :: t)] at hy
        have := hy _ _ _ h1
        cases this
        rw [split_while] at h2
        have h3 := atMost_not (S := S) (a := .notP (.scope (.seq (.lit [':']) (.pred 439)))) (w := [])
          (u := (c :: t).dropWhile (k.has S.letter S.number)) (e := .scope (.seq (.lit ['@']) (.cls k))) ?_ _ _ _ h2
        · exact h3
        · intro st s r hr
          rcases eval_notP.mp hr with ⟨s2, _, rfl⟩ | ⟨s2, v', _, rfl⟩
          · exact .inr rfl
          · exact .inl rfl

theorem special_not_blank (h : isBlank c = true) : isSpecial c = false := by
  simp only [isBlank, Bool.or_eq_true, beq_iff_eq] at h
  rcases h with rfl | rfl <;> rfl

theorem gives_Spaces (hA : Obeys A) : Gives grammar S A (.rule R.Spaces) (c :: t) (fun o => o = none ∨ Took b (c :: t) o) := by
  let k : Cls := ⟨false, ['\t', ' '], [], false, false⟩
  cases hc : k.has S.letter S.number c with
  | false => exact gives_never (yields_rule (yields_act (never_plus_class hc))) (.inl rfl)
  | true =>
    refine gives_rule ?_
    rw [← split_while (k.has S.letter S.number) (c :: t)]
    refine gives_textual (u := (c :: t).dropWhile (k.has S.letter S.number)) hA (by rw [List.takeWhile_cons_of_pos hc]; exact List.cons_ne_nil _ _) ?_ (.inl (fun _ _ => rfl)) ?_
    · intro d hd
      have hk := mem_takeWhile hd
      rw [special_not_blank (by rw [← has_blank (S := S)]; exact hk)]; simp
    · refine atMost_of_yields ?_
      rw [split_while]
      exact yields_plus_class hc

theorem gives_Space (hA : Obeys A) : Gives grammar S A (.rule R.Space) (c :: t) (fun o => o = none ∨ Took b (c :: t) o) := by
  cases hc : isBlank c with
  | false => exact gives_never (never_Space hc) (.inl rfl)
  | true =>
    refine gives_rule (gives_textual (w := [c]) (u := t) hA (List.cons_ne_nil _ _) ?_ (.inl (fun _ _ => rfl)) atMost_cls)
    intro d hd
    rw [List.mem_singleton.mp hd, special_not_blank hc]; simp

theorem yields_newline_body : Yields grammar S (.alt (.lit ['\n']) (.alt (.lit ['\r', '\n']) (.lit ['\r']))) t (newline t) := by
  have hl : ∀ l, Yields grammar S (.lit l) t (matchLit l t) := fun l => yields_lit
  rw [newline_lit]
  cases h1 : matchLit ['\n'] t with
  | some u => exact yields_alt_left ((hl _).to h1)
  | none =>
    refine yields_alt_right ((hl _).to h1) ?_
    cases h2 : matchLit ['\r', '\n'] t with
    | some u => exact yields_alt_left ((hl _).to h2)
    | none => exact yields_alt_right ((hl _).to h2) (hl _)

theorem gives_Newline (hA : Obeys A) : Gives grammar S A (.rule R.Newline) (c :: t) (fun o => o = none ∨ Took b (c :: t) o) := by
  have key : ∀ w u : Text, c :: t = w ++ u → w ≠ [] → (∀ d ∈ w, isEol d = true) → newline (c :: t) = some u →
      Gives grammar S A (.rule R.Newline) (c :: t) (fun o => o = none ∨ Took b (c :: t) o) := by
    intro w u he hw hd hn
    have hy := yields_newline_body (S := S) (t := c :: t)
    rw [hn] at hy
    rw [he] at hy ⊢
    refine gives_rule (gives_textual hA hw ?_ (.inl (fun _ _ => rfl)) (fun st s r hr => .inr ?_))
    · intro d hm
      have := hd d hm
      simp only [isEol, Bool.or_eq_true, beq_iff_eq] at this
      rcases this with rfl | rfl <;> simp [isSpecial]
    · exact hy _ _ _ hr
  cases hn : newline (c :: t) with
  | none => exact gives_never (yields_Newline.to hn) (.inl rfl)
  | some u =>
    by_cases h1 : c = '\n'
    · subst h1
      cases hn
      exact key ['\n'] t rfl (by simp) (by simp [isEol]) rfl
    · by_cases h2 : c = '\r'
      · subst h2
        cases t with
        | nil => exact key ['\r'] [] rfl (by simp) (by simp [isEol]) rfl
        | cons d t =>
          by_cases h3 : d = '\n'
          · subst h3
            exact key ['\r', '\n'] t rfl (by simp) (by simp [isEol]) rfl
          · refine key ['\r'] (d :: t) rfl (by simp) (by simp [isEol]) ?_
            rw [newline_lit]; simp [matchLit, Ne.symm h3]
      · rw [newline_lit] at hn
        simp [matchLit, Ne.symm h1, Ne.symm h2] at hn

theorem never_Punctuation (h : isSpecial c = true) : Never grammar S (.rule R.Punctuation) (c :: t) := by
  simp only [isSpecial, Bool.or_eq_true, beq_iff_eq] at h
  have hl : ∀ x : Char, x ≠ c → Never grammar S (.lit [x]) (c :: t) := fun x hx => yields_lit.to (by simp [matchLit, hx])
  have hp : ∀ {id : Nat} {e : Exp}, Never grammar S e (c :: t) → Never grammar S (.scope (.seq (.pred id) e)) (c :: t) := by
    intro id e he
    refine yields_scope (fun st s r hr => ?_)
    have := atMost_pred (S := S) (w := []) (u := c :: t) (id := id) (atMost_of_never he) st s r hr
    rcases eval_seq.mp hr with ⟨s1, h1, rfl⟩ | ⟨s1, v, h1, h2⟩
    · rfl
    · have hv : v = c :: t := by
        rw [eval_pred] at h1
        cases hp : S.pred id s st (c :: t) with
        | mk b y => rw [hp] at h1; cases b <;> cases h1; rfl
      exact he _ _ _ (hv ▸ h2)
  have hne : ∀ x ∈ ['.', ',', ';', '?', ')', '!', '/', ':', '"', '\'', '@', '=', '-', '[', ']', '*', '_', '`', '#', '('], x ≠ c := by
    rcases h with (rfl | rfl) | rfl <;> decide
  refine yields_rule (yields_act (yields_alt_right (yields_cls_no ?_) (yields_alt_right (yields_alt_right (hp (hl _ (hne _ (by decide))))
    (hl _ (hne _ (by decide)))) (yields_alt_right (hp (yields_alt_right (hl _ (hne _ (by decide))) (yields_alt_right (hl _ (hne _ (by decide)))
    (yields_alt_right (hl _ (hne _ (by decide))) (hl _ (hne _ (by decide))))))) (yields_scope (never_seq (hl _ (hne _ (by decide)))))))))
  rcases h with (rfl | rfl) | rfl <;> rfl

theorem gives_Punctuation (hA : Obeys A) : Gives grammar S A (.rule R.Punctuation) (c :: t) (fun o => o = none ∨ Took b (c :: t) o) := by
  cases hc : isSpecial c with
  | true => exact gives_never (never_Punctuation hc) (.inl rfl)
  | false =>
    refine gives_rule (gives_textual (w := [c]) (u := t) hA (List.cons_ne_nil _ _) ?_ (.inl (fun _ _ => rfl)) ?_)
    · intro d hd; rw [List.mem_singleton.mp hd, hc]; simp
    · exact atMost_alt atMost_cls (atMost_alt (atMost_alt (atMost_scope (atMost_pred atMost_char)) atMost_char) (atMost_alt (atMost_scope
        (atMost_pred (atMost_alt atMost_char (atMost_alt atMost_char (atMost_alt atMost_char atMost_char))))) (atMost_scope (atMost_not
        atMost_char))))

theorem gives_AnyChar (hA : Obeys A) (hc : (b && isSpecial c) = false) :
    Gives grammar S A (.rule R.AnyChar) (c :: t) (fun o => o = none ∨ Took b (c :: t) o) := by
  refine gives_rule (gives_textual (w := [c]) (u := t) hA (List.cons_ne_nil _ _) ?_ (.inl (fun _ _ => rfl)) atMost_cls)
  intro d hd; rw [List.mem_singleton.mp hd, hc]

/-- A special character, when they are replaced. -/
theorem gives_SpecialCharacter (hA : Obeys A) (hE : Enabled S E) (hb : b = decide (Sub.specialchars ∈ E)) :
    Gives grammar S A (.rule R.SpecialCharacter) (c :: t) (fun o => o = none ∨ Took b (c :: t) o) := by
  by_cases hs : Sub.specialchars ∈ E
  · have hb' : b = true := by rw [hb]; simpa using hs
    have hlit : ∀ x : Char, isSpecial x = true →
        Gives grammar S A (.lit [x]) (c :: t) (fun o => o = none ∨ (isSpecial c = true ∧ ∃ v, o = some (v, t))) := by
      intro x hx
      refine gives_lit.mono (fun o ho => ?_)
      have hm : matchLit [x] (c :: t) = if x = c then some t else none := rfl
      rw [hm] at ho
      by_cases h : x = c
      · rw [if_pos h] at ho; exact .inr ⟨h ▸ hx, _, ho⟩
      · rw [if_neg h] at ho; exact .inl ho
    refine gives_rule (gives_act (P := fun o => o = none ∨ (isSpecial c = true ∧ o = some ([.slice [.nil, .special [c]]], t)))
      (gives_scope (P := fun o => o = none ∨ (isSpecial c = true ∧ o = some ([.nil, .special [c]], t)))
        (gives_seq (P := fun o => o = none ∨ o = some ([.nil], c :: t)) gives_pred (fun _ => .inl rfl) ?_)
        (fun _ => .inl rfl) ?_) (fun _ => .inl rfl) ?_)
    · rintro v u (h | h)
      · cases h
      · cases h
        refine gives_act (P := fun o => o = none ∨ (isSpecial c = true ∧ ∃ v, o = some (v, t)))
          (gives_alt ((hlit '<' rfl).mono (fun _ h => .inr h)) (gives_alt ((hlit '>' rfl).mono (fun _ h => .inr h)) (hlit '&' rfl)))
          (fun _ => .inl rfl) ?_
        rintro s v u (h | ⟨h1, v', h2⟩)
        · cases h
        · cases h2
          have hsp : span (c :: t) t = [c] := span_append [c] t
          rw [hsp, hA 382 s _ [c] _ rfl]
          exact .inr ⟨h1, rfl⟩
    · rintro v u (h | ⟨h1, h2⟩)
      · cases h
      · cases h2; exact .inr ⟨h1, rfl⟩
    · rintro s v u (h | ⟨h1, h2⟩)
      · cases h
      · cases h2
        refine .inr ⟨[c], t, _, rfl, rfl, List.cons_ne_nil _ _, ?_⟩
        rw [hA 383 s _ _ _ rfl]
        exact .special (by rw [hb', h1]; rfl)
  · exact gives_never (yields_rule (yields_act (yields_scope (never_seq (pred_off hE (by decide) hs))))) (.inl rfl)

theorem sure_SpecialCharacter (hE : Enabled S E) (hs : Sub.specialchars ∈ E) (hc : isSpecial c = true) :
    Sure grammar S (.rule R.SpecialCharacter) (c :: t) := by
  have hp : Yields grammar S (.pred 381) (c :: t) (some (c :: t)) :=
    yields_pred (fun s st => by rw [hE _ (show (381, Sub.specialchars) ∈ guards by decide)]; simpa using hs)
  have hl : Sure grammar S (.alt (.lit ['<']) (.alt (.lit ['>']) (.lit ['&']))) (c :: t) := by
    simp only [isSpecial, Bool.or_eq_true, beq_iff_eq] at hc
    rcases hc with (rfl | rfl) | rfl
    · exact sure_alt_left (yields_lit.to (o' := some t) rfl).sure
    · exact sure_alt_right (sure_alt_left (yields_lit.to (o' := some t) rfl).sure)
    · exact sure_alt_right (sure_alt_right (yields_lit.to (o' := some t) rfl).sure)
  exact sure_rule (sure_act (sure_scope (sure_seq hp (sure_act hl))))

/-- What comes after an alternative that does not fail does not matter. -/
theorem gives_alt_sure {x y : Exp} {Q : Option (List Any × Text) → Prop} (hx : Gives grammar S A x t (fun o => o = none ∨ Q o))
    (hs : Sure grammar S x t) : Gives grammar S A (.alt x y) t (fun o => o = none ∨ Q o) := by
  intro st s r hr
  have hx' := hx.and_sure hs
  rcases hr with ⟨n, h⟩
  cases n with
  | zero => cases h
  | succ n =>
    unfold runV at h
    cases h1 : runV grammar S A n x st s t with
    | none => rw [h1] at h; cases h
    | some q =>
      rw [h1] at h
      have hq := hx' _ _ _ ⟨n, h1⟩
      cases q with
      | fail s1 => exact absurd rfl hq.2
      | ok s1 v u => cases h; exact hq.1

/-- The alternatives of `NormalGroup` (parser.peg:2349-2363). -/
def normalElement : Exp := .alt (.rule R.InlineText) (.alt
    (.rule R.Spaces) (.alt (.rule R.Replacement) (.alt (.rule R.TypographicQuote) (.alt (.rule R.Punctuation)
    (.alt (.rule R.Newline) (.alt (.rule R.AttributeReference) (.alt (.rule R.Quote) (.alt (.rule R.InlineMacro)
    (.alt (.rule R.Callout) (.alt (.rule R.SpecialCharacter) (.alt (.rule R.LineBreak) (.alt (.rule R.InlinePassthrough)
    (.alt (.rule R.ElementPlaceHolder) (.rule R.AnyChar))))))))))))))

/-- The alternatives of `AttributeStructuredValueElement` (parser.peg:2380-2390). -/
def structuredElement : Exp := .alt (.rule R.InlineText) (.alt (.rule R.Space) (.alt (.rule R.Replacement)
    (.alt (.rule R.Punctuation) (.alt (.rule R.Quote) (.alt (.rule R.InlineMacro) (.alt (.rule R.SpecialCharacter)
    (.alt (.rule R.ElementPlaceHolder) (.alt (.rule R.Newline) (.rule R.AnyChar)))))))))

theorem gives_orElse {x y : Exp} {Q : Option (List Any × Text) → Prop} (hx : Gives grammar S A x t (fun o => o = none ∨ Q o))
    (hy : Gives grammar S A y t (fun o => o = none ∨ Q o)) : Gives grammar S A (.alt x y) t (fun o => o = none ∨ Q o) :=
  gives_alt (hx.mono (fun _ h => .inr h)) hy

theorem gives_normalElement (hS : C45.ChecksProgress S) (hA : Obeys A) (hE : Enabled S E) (hC : Classes S)
    (hb : b = decide (Sub.specialchars ∈ E)) (ht : Plain E (c :: t)) :
    Gives grammar S A normalElement (c :: t) (fun o => o = none ∨ Took b (c :: t) o) := by
  refine gives_orElse (gives_InlineText hA hC) (gives_orElse (gives_Spaces hA) (gives_alt_never (never_Replacement hS hE ht)
    (gives_alt_never (never_TypographicQuote hE ht) (gives_orElse (gives_Punctuation hA) (gives_orElse (gives_Newline hA)
    (gives_alt_never (never_AttributeReference hS hE ht) (gives_alt_never (never_Quote hS hE ht) (gives_alt_never (never_InlineMacro hS hE ht)
    (gives_alt_never (never_Callout hE ht) ?_)))))))))
  cases hc : (b && isSpecial c) with
  | true =>
    rw [Bool.and_eq_true] at hc
    exact gives_alt_sure (gives_SpecialCharacter hA hE hb)
      (sure_SpecialCharacter hE (by have := hc.1; rw [hb] at this; simpa using this) hc.2)
  | false =>
    exact gives_orElse (gives_SpecialCharacter hA hE hb) (gives_alt_never (never_LineBreak hS hE ht)
      (gives_alt_never (never_InlinePassthrough hS hE ht) (gives_alt_never (never_ElementPlaceHolder ht) (gives_AnyChar hA hc))))

theorem gives_structuredElement (hS : C45.ChecksProgress S) (hA : Obeys A) (hE : Enabled S E) (hC : Classes S)
    (hb : b = decide (Sub.specialchars ∈ E)) (ht : Plain E (c :: t)) :
    Gives grammar S A structuredElement (c :: t) (fun o => o = none ∨ Took b (c :: t) o) := by
  refine gives_orElse (gives_InlineText hA hC) (gives_orElse (gives_Space hA) (gives_alt_never (never_Replacement hS hE ht)
    (gives_orElse (gives_Punctuation hA) (gives_alt_never (never_Quote hS hE ht) (gives_alt_never (never_InlineMacro hS hE ht) ?_)))))
  cases hc : (b && isSpecial c) with
  | true =>
    rw [Bool.and_eq_true] at hc
    exact gives_alt_sure (gives_SpecialCharacter hA hE hb)
      (sure_SpecialCharacter hE (by have := hc.1; rw [hb] at this; simpa using this) hc.2)
  | false =>
    exact gives_orElse (gives_SpecialCharacter hA hE hb) (gives_alt_never (never_ElementPlaceHolder ht)
      (gives_orElse (gives_Newline hA) (gives_AnyChar hA hc)))

theorem sure_normalElement : Sure grammar S normalElement (c :: t) := by
  rcases C47.newline_or_char (S := S) c t with h | h
  · exact sure_alt_right (sure_alt_right (sure_alt_right (sure_alt_right (sure_alt_right (sure_alt_left h)))))
  · exact sure_alt_right (sure_alt_right (sure_alt_right (sure_alt_right (sure_alt_right (sure_alt_right
      (sure_alt_right (sure_alt_right (sure_alt_right (sure_alt_right (sure_alt_right (sure_alt_right (sure_alt_right
      (sure_alt_right h)))))))))))))

theorem sure_structuredElement : Sure grammar S structuredElement (c :: t) := by
  rcases C47.newline_or_char (S := S) c t with h | h
  · exact sure_alt_right (sure_alt_right (sure_alt_right (sure_alt_right (sure_alt_right (sure_alt_right
      (sure_alt_right (sure_alt_right (sure_alt_left h))))))))
  · exact sure_alt_right (sure_alt_right (sure_alt_right (sure_alt_right (sure_alt_right (sure_alt_right
      (sure_alt_right (sure_alt_right (sure_alt_right h))))))))

/-! ### Sequences of elements -/

/-- The values stand for the text. -/
inductive Pieces (b : Bool) : Text → List Any → Prop
  | nil : Pieces b [] []
  | cons {w u : Text} {v : Any} {vs : List Any} : w ≠ [] → Piece b w v → Pieces b u vs → Pieces b (w ++ u) (v :: vs)

/-- One element of a group: `NotEOF` and one of the alternatives, with an action that returns the element. -/
theorem gives_element {id : Nat} {e : Exp} (hA : Obeys A) (hid : ∀ x v t, code id [.slice [x, v]] t = some v)
    (he : Gives grammar S A e (c :: t) (fun o => o = none ∨ Took b (c :: t) o)) (hs : Sure grammar S e (c :: t)) :
    Gives grammar S A (.act id (.scope (.seq (.rule R.NotEOF) e))) (c :: t) (Took b (c :: t)) := by
  refine gives_act (P := fun o => ∃ w u v, o = some ([.slice [.nil, v]], u) ∧ c :: t = w ++ u ∧ w ≠ [] ∧ Piece b w v)
    (gives_scope (P := fun o => ∃ w u v, o = some ([.nil, v], u) ∧ c :: t = w ++ u ∧ w ≠ [] ∧ Piece b w v)
      (gives_seq (P := fun o => o = some ([.nil], c :: t)) ?_ (fun h => nomatch h) ?_) ?_ ?_) ?_ ?_
  · refine gives_rule ?_
    intro st s r hr
    rcases gives_andP _ _ _ hr with h | h
    · have := yields_andP (G := grammar) (S := S) (yields_any_cons (t := t) (c := c)).sure _ _ _ hr.erase
      rw [ResV.out_rest, h] at this; cases this
    · exact h
  · intro v u hv
    cases hv
    refine (he.and_sure hs).mono (fun o ho => ?_)
    obtain ⟨rfl | ⟨w, u, v, rfl, h2, h3, h4⟩, hn⟩ := ho
    · exact absurd rfl hn
    · exact ⟨w, u, v, rfl, h2, h3, h4⟩
  · rintro ⟨w, u, v, h, _⟩; cases h
  · rintro v u ⟨w, u', v', h, h2⟩; cases h; exact ⟨w, u, v', rfl, h2⟩
  · rintro ⟨w, u, v, h, _⟩; cases h
  · rintro s v u ⟨w, u', v', h, h2⟩
    cases h
    exact ⟨w, u, v', by rw [hA id s _ _ _ (hid _ _ _)], h2⟩

theorem gives_loop {e : Exp} (h0 : Never grammar S e [])
    (he : ∀ c t, Plain E (c :: t) → Gives grammar S A e (c :: t) (Took b (c :: t))) : ∀ t, Plain E t →
    Gives grammar S A (.star e) t (fun o => ∃ vs, o = some ([.slice vs], []) ∧ Pieces b t vs) := by
  intro t ht
  induction hl : t.length using Nat.strongRecOn generalizing t with
  | ind n ih =>
    cases t with
    | nil =>
      exact gives_star (P := fun o => o = none) (gives_never h0 rfl) (fun _ => ⟨[], rfl, .nil⟩) (fun v u h => nomatch h)
    | cons c t =>
      refine gives_star (he c t ht) (fun h => ?_) (fun v u h => ?_)
      · obtain ⟨w, u, v, h, _⟩ := h; cases h
      · obtain ⟨w, u', v', h, h2, h3, h4⟩ := h
        cases h
        have hu : Plain E u := plain_suffix ht ⟨w, h2.symm⟩
        refine (ih u.length ?_ u hu rfl).mono (fun o ho => ?_)
        · have hlen := congrArg List.length h2
          have : 0 < w.length := List.length_pos_iff.mpr h3
          simp only [List.length_append] at hlen
          omega
        · obtain ⟨vs, rfl, hv⟩ := ho
          exact ⟨v' :: vs, rfl, h2 ▸ .cons h3 h4 hv⟩

/-! ### Merging -/

theorem pieces_text : ∀ (w : Text), (∀ c ∈ w, (b && isSpecial c) = false) → pieces b w = Walk.flush w
  | [], _ => rfl
  | c :: w, h => by
    have ih := pieces_text w (fun d hd => h d (List.mem_cons_of_mem _ hd))
    have hc := h c List.mem_cons_self
    unfold pieces
    rw [if_neg (by rw [hc]; decide), ih]
    cases w <;> rfl

theorem pieces_special {u : Text} (hc : (b && isSpecial c) = true) : ∀ (w : Text), (∀ d ∈ w, (b && isSpecial d) = false) →
    pieces b (w ++ c :: u) = Walk.flush w ++ .special [c] :: pieces b u
  | [], _ => by
    show pieces b (c :: u) = _
    conv => lhs; unfold pieces
    rw [if_pos hc]; rfl
  | d :: w, h => by
    have ih := pieces_special (u := u) hc w (fun x hx => h x (List.mem_cons_of_mem _ hx))
    have hd := h d List.mem_cons_self
    show pieces b (d :: (w ++ c :: u)) = _
    conv => lhs; unfold pieces
    rw [if_neg (by rw [hd]; decide), ih]
    cases w <;> rfl

theorem merged {vs : List Any} (h : Pieces b t vs) : ∀ (res : List Any) (buf : Text), (∀ c ∈ buf, (b && isSpecial c) = false) →
    Walk.mergeLoop res buf vs = res ++ pieces b (buf ++ t) ∧ Walk.flatLoop res buf vs = res ++ pieces b (buf ++ t) := by
  induction h with
  | nil =>
    intro res buf hb
    rw [List.append_nil, pieces_text buf hb]
    exact ⟨rfl, rfl⟩
  | @cons w u v vs hw hp _ ih =>
    intro res buf hb
    cases hp with
    | text hp =>
      have := ih res (buf ++ w) (fun c hc => (List.mem_append.mp hc).elim (hb c) (hp c))
      rw [List.append_assoc] at this
      exact this
    | str hp =>
      have := ih res (buf ++ w) (fun c hc => (List.mem_append.mp hc).elim (hb c) (hp c))
      rw [List.append_assoc] at this
      exact this
    | @special d hp =>
      have := ih (res ++ Walk.flush buf ++ [.special [d]]) [] (fun _ h => nomatch h)
      show Walk.mergeLoop _ _ vs = res ++ pieces b (buf ++ (d :: u)) ∧ Walk.flatLoop _ _ vs = res ++ pieces b (buf ++ (d :: u))
      rw [pieces_special hp buf hb]
      simpa using this

theorem inners_pieces {vs : List Any} (h : Pieces b t vs) : Walk.inners vs = vs := by
  induction h with
  | nil => rfl
  | cons _ hp _ ih => show Walk.inner _ :: Walk.inners _ = _; rw [ih]; cases hp <;> rfl

/-- The pieces of a text stand for it. -/
theorem pieces_pieces (b : Bool) : ∀ t : Text, Pieces b t (pieces b t)
  | [] => .nil
  | c :: t => by
    have ih := pieces_pieces b t
    unfold pieces
    split
    · next h => exact .cons (w := [c]) (List.cons_ne_nil _ _) (.special h) ih
    · next h =>
      have hc : ∀ d ∈ [c], (b && isSpecial d) = false := fun d hd => by rw [List.mem_singleton.mp hd]; simpa using h
      split
      · next u es he =>
        rw [he] at ih
        cases ih with
        | @cons w u' _ _ hw hp hrest =>
          cases hp with
          | str hp =>
            refine .cons (w := c :: u) (List.cons_ne_nil _ _) (.str (fun d hd => ?_)) hrest
            rcases List.mem_cons.mp hd with rfl | hd
            · simpa using h
            · exact hp d hd
      · exact .cons (w := [c]) (List.cons_ne_nil _ _) (.str hc) ih

theorem merge_pieces {vs : List Any} (h : Pieces b t vs) : Walk.merge [.slice vs] = pieces b t := by
  have h1 : Walk.mergeLoop [] [] (Walk.inners vs) = pieces b t := by
    rw [inners_pieces h]; exact (merged h [] [] (fun _ h => nomatch h)).1
  cases vs with
  | nil => exact h1
  | cons v vs =>
    show Walk.mergeLoop [] [] [.slice (Walk.mergeLoop [] [] (Walk.inners (v :: vs)))] = _
    rw [h1]
    have h2 := (merged (pieces_pieces b t) [] [] (fun _ h => nomatch h)).2
    show Walk.flatLoop [] [] (pieces b t) ++ [] = pieces b t
    rw [List.append_nil]
    exact h2

theorem code_group {vs : List Any} (h : Pieces b t vs) : newInlineElements vs = some (.slice (pieces b t)) := by
  unfold newInlineElements
  rw [merge_pieces h, if_neg]
  have key : ∀ {t : Text} {vs : List Any}, Pieces b t vs → ∀ v ∈ vs, ∀ n, v ≠ .leaf n := by
    intro t vs h
    induction h with
    | nil => intro v hv; cases hv
    | cons _ hp _ ih =>
      intro v hv n
      rcases List.mem_cons.mp hv with rfl | hv
      · cases hp <;> exact fun e => nomatch e
      · exact ih v hv n
  rw [Bool.not_eq_true, List.any_eq_false]
  intro v hv
  have := key (pieces_pieces b t) v hv
  cases v <;> first | exact absurd rfl (this _) | simp

/-! ### The whole text -/

/-- A loop over a text, and its end. -/
theorem gives_group {id : Nat} {e : Exp} (hA : Obeys A) (hid : ∀ vs v t, code id [.slice [.slice vs, v]] t = newInlineElements vs)
    (h0 : Never grammar S e []) (he : ∀ c t, Plain E (c :: t) → Gives grammar S A e (c :: t) (Took b (c :: t))) (ht : Plain E (c :: t)) :
    Gives grammar S A (.act id (.scope (.seq (.plus e) (.rule R.EOF)))) (c :: t) (fun o => o = some ([.slice (pieces b (c :: t))], [])) := by
  have hstar := gives_loop h0 he
  refine gives_act (P := fun o => ∃ vs, o = some ([.slice [.slice vs, .nil]], []) ∧ Pieces b (c :: t) vs)
    (gives_scope (P := fun o => ∃ vs, o = some ([.slice vs, .nil], []) ∧ Pieces b (c :: t) vs)
      (gives_seq (P := fun o => ∃ vs, o = some ([.slice vs], []) ∧ Pieces b (c :: t) vs) ?_ ?_ ?_) ?_ ?_) ?_ ?_
  · refine gives_plus (he c t ht) (fun h => ?_) (fun v u h => ?_)
    · obtain ⟨w, u, v, h, _⟩ := h; cases h
    · obtain ⟨w, u', v', h, h2, h3, h4⟩ := h
      cases h
      refine (hstar u (plain_suffix ht ⟨w, h2.symm⟩)).mono (fun o ho => ?_)
      obtain ⟨vs, rfl, hv⟩ := ho
      exact ⟨v' :: vs, rfl, h2 ▸ .cons h3 h4 hv⟩
  · rintro ⟨vs, h, _⟩; cases h
  · rintro v u ⟨vs, h, hv⟩
    cases h
    refine (gives_rule (gives_notP_never (e := .any) (fun st s r h => ?_))).mono (fun o ho => ?_)
    · exact yields_any_nil st s r h
    · cases ho; exact ⟨vs, rfl, hv⟩
  · rintro ⟨vs, h, _⟩; cases h
  · rintro v u ⟨vs, h, hv⟩; cases h; exact ⟨vs, rfl, hv⟩
  · rintro ⟨vs, h, _⟩; cases h
  · rintro s v u ⟨vs, h, hv⟩
    cases h
    rw [hA id s _ _ _ ((hid vs .nil _).trans (code_group hv))]

theorem never_element_nil {id : Nat} {e : Exp} : Never grammar S (.act id (.scope (.seq (.rule R.NotEOF) e))) [] :=
  yields_act (yields_scope (never_seq never_NotEOF))

theorem gives_NormalGroup (hS : C45.ChecksProgress S) (hA : Obeys A) (hE : Enabled S E) (hC : Classes S) (ht : Plain E (c :: t)) :
    Gives grammar S A (.rule R.NormalGroup) (c :: t)
      (fun o => o = some ([.slice (pieces (decide (Sub.specialchars ∈ E)) (c :: t))], [])) :=
  gives_rule (gives_group (e := .act 370 (.scope (.seq (.rule R.NotEOF) normalElement))) hA (fun _ _ _ => rfl) never_element_nil
    (fun _ _ h => gives_element hA (fun _ _ _ => rfl) (gives_normalElement hS hA hE hC rfl h) sure_normalElement) ht)

theorem gives_AttributeStructuredValue (hS : C45.ChecksProgress S) (hA : Obeys A) (hE : Enabled S E) (hC : Classes S)
    (ht : Plain E (c :: t)) : Gives grammar S A (.rule R.AttributeStructuredValue) (c :: t)
      (fun o => o = some ([.slice (pieces (decide (Sub.specialchars ∈ E)) (c :: t))], [])) :=
  gives_rule (gives_group (e := .rule R.AttributeStructuredValueElement) hA (fun _ _ _ => rfl) (yields_rule never_element_nil)
    (fun _ _ h => gives_rule (gives_element hA (fun _ _ _ => rfl) (gives_structuredElement hS hA hE hC rfl h) sure_structuredElement)) ht)

/-- **C58**: inline content with no mark of an enabled substitution is left as it is. Both rules used for inline content take all of such a
text, and their value is the text itself — one string, if special characters are not to be replaced or there are none; otherwise the special
characters and the strings between them. For all texts, all sets of enabled substitutions, and all meanings of the other code in the grammar. -/
theorem left_alone (hS : C45.ChecksProgress S) (hA : Obeys A) (hE : Enabled S E) (hC : Classes S) (ht : Plain E t) (hne : t ≠ []) {i : Nat}
    (hi : i = R.NormalGroup ∨ i = R.AttributeStructuredValue) (s : σ) :
    ∃ n s', runV grammar S A n (.rule i) t s t = some (.ok s' [.slice (pieces (decide (Sub.specialchars ∈ E)) t)] []) := by
  obtain ⟨n, s', h⟩ := C47.inline_accepted S hS s t hne i hi
  obtain ⟨r, ⟨n, hr⟩, _⟩ := evalV_of_eval grammar S A (show Eval grammar S (.rule i) t s t (.ok s' []) from ⟨n, h⟩)
  have hg : r.out = some ([.slice (pieces (decide (Sub.specialchars ∈ E)) t)], []) := by
    cases t with
    | nil => exact absurd rfl hne
    | cons c t =>
      rcases hi with rfl | rfl
      · exact gives_NormalGroup hS hA hE hC ht _ _ _ ⟨n, hr⟩
      · exact gives_AttributeStructuredValue hS hA hE hC ht _ _ _ ⟨n, hr⟩
  cases r with
  | fail s1 => cases hg
  | ok s1 v u => cases hg; exact ⟨n, s1, hr⟩

/-- Whatever bound on the depth of calls the parser runs with, this is the only result. -/
theorem no_other (hS : C45.ChecksProgress S) (hA : Obeys A) (hE : Enabled S E) (hC : Classes S) (ht : Plain E t) (hne : t ≠ []) {i : Nat}
    (hi : i = R.NormalGroup ∨ i = R.AttributeStructuredValue) {s : σ} {n : Nat} {r : ResV σ}
    (h : runV grammar S A n (.rule i) t s t = some r) :
    ∃ s', r = .ok s' [.slice (pieces (decide (Sub.specialchars ∈ E)) t)] [] := by
  have hg : r.out = some ([.slice (pieces (decide (Sub.specialchars ∈ E)) t)], []) := by
    cases t with
    | nil => exact absurd rfl hne
    | cons c t =>
      rcases hi with rfl | rfl
      · exact gives_NormalGroup hS hA hE hC ht _ _ _ ⟨n, h⟩
      · exact gives_AttributeStructuredValue hS hA hE hC ht _ _ _ ⟨n, h⟩
  cases r with
  | fail s1 => cases hg
  | ok s1 v u => cases hg; exact ⟨s1, rfl⟩

/-! ### What the pieces are -/

/-- The text of an element. -/
def textOf : Any → Text
  | .str t => t
  | .special t => t
  | _ => []

/-- The pieces give back the text. -/
theorem pieces_text_of (b : Bool) : ∀ t : Text, (pieces b t).flatMap textOf = t
  | [] => rfl
  | c :: t => by
    have ih := pieces_text_of b t
    unfold pieces
    split
    · rw [List.flatMap_cons, ih]; rfl
    · split
      · next u es he => rw [he] at ih; rw [List.flatMap_cons] at ih ⊢; rw [← ih]; rfl
      · rw [List.flatMap_cons, ih]; rfl

/-- Without special characters to replace, there is one piece. -/
theorem pieces_one (hne : t ≠ []) (h : ∀ c ∈ t, (b && isSpecial c) = false) : pieces b t = [.str t] := by
  rw [pieces_text t h]
  cases t with
  | nil => exact absurd rfl hne
  | cons c t => rfl

/-- Every special character to be replaced is a piece of its own, and nothing else is. -/
theorem pieces_kinds (b : Bool) (t : Text) : ∀ e ∈ pieces b t,
    (∃ c, e = .special [c] ∧ b = true ∧ isSpecial c = true) ∨ ∃ u, e = .str u ∧ u ≠ [] ∧ ∀ c ∈ u, (b && isSpecial c) = false := by
  intro e he
  have key : ∀ {t : Text} {vs : List Any}, Pieces b t vs → (∀ v ∈ vs, ∀ x, v ≠ .text x) → ∀ e ∈ vs,
      (∃ c, e = .special [c] ∧ b = true ∧ isSpecial c = true) ∨ ∃ u, e = .str u ∧ u ≠ [] ∧ ∀ c ∈ u, (b && isSpecial c) = false := by
    intro t vs h
    induction h with
    | nil => intro _ e he; cases he
    | @cons w u v vs hw hp _ ih =>
      intro hn e he
      rcases List.mem_cons.mp he with rfl | he
      · cases hp with
        | text _ => exact absurd rfl (hn _ List.mem_cons_self _)
        | str h => exact .inr ⟨w, rfl, hw, h⟩
        | @special c h => rw [Bool.and_eq_true] at h; exact .inl ⟨c, rfl, h.1, h.2⟩
      · exact ih (fun v hv => hn v (List.mem_cons_of_mem _ hv)) e he
  have hstr : ∀ t : Text, ∀ v ∈ pieces b t, ∀ x, v ≠ .text x := by
    intro t
    induction t with
    | nil => intro v hv; cases hv
    | cons c t ih =>
      intro v hv x
      unfold pieces at hv
      split at hv
      · rcases List.mem_cons.mp hv with rfl | hv
        · exact fun e => nomatch e
        · exact ih v hv x
      · split at hv
        · next u es he =>
          rcases List.mem_cons.mp hv with rfl | hv
          · exact fun e => nomatch e
          · exact ih v (by rw [he]; exact List.mem_cons_of_mem _ hv) x
        · rcases List.mem_cons.mp hv with rfl | hv
          · exact fun e => nomatch e
          · exact ih v hv x
  exact key (pieces_pieces b t) (hstr t) e he

/-! ### The sets of substitutions -/

/-- With no substitutions (passthrough blocks), only an escaped apostrophe and the character of place holders are interpreted. -/
theorem passthrough_content (hS : C45.ChecksProgress S) (hA : Obeys A) (hE : Enabled S []) (hC : Classes S) (hne : t ≠ [])
    (h1 : ¬ ['\\', '\''] <:+: t) (h2 : '\uFFFD' ∉ t) (s : σ) :
    ∃ n s', runV grammar S A n (.rule R.NormalGroup) t s t = some (.ok s' [.slice [.str t]] []) := by
  have hp : Plain [] t := by
    refine ⟨fun m hm hi => ?_, fun s hs => nomatch hs⟩
    rcases List.mem_cons.mp hm with rfl | hm
    · exact h1 hi
    · rw [List.mem_singleton.mp hm] at hi
      exact h2 (hi.sublist.subset (by decide))
  have := left_alone hS hA hE hC hp hne (.inl rfl) s
  rwa [pieces_one hne (fun c _ => rfl)] at this

/-- Verbatim blocks (listings, literal and source blocks): marks of quotes, macros, attributes, … are not interpreted; callouts are. -/
theorem verbatim_content (hS : C45.ChecksProgress S) (hA : Obeys A) (hE : Enabled S Subs.verbatim) (hC : Classes S) (hne : t ≠ [])
    (h1 : ¬ ['\\', '\''] <:+: t) (h2 : '\uFFFD' ∉ t) (h3 : ∀ d : Char, d.isDigit = true → ¬ ['<', d] <:+: t) (s : σ) :
    ∃ n s', runV grammar S A n (.rule R.NormalGroup) t s t = some (.ok s' [.slice (pieces true t)] []) := by
  have hp : Plain Subs.verbatim t := by
    refine ⟨fun m hm hi => ?_, fun s hs m hm => ?_⟩
    · rcases List.mem_cons.mp hm with rfl | hm
      · exact h1 hi
      · rw [List.mem_singleton.mp hm] at hi
        exact h2 (hi.sublist.subset (by decide))
    · rcases List.mem_cons.mp hs with rfl | hs
      · simp only [marks, List.mem_cons, List.not_mem_nil, or_false] at hm
        rcases hm with rfl | rfl | rfl | rfl | rfl | rfl | rfl | rfl | rfl | rfl <;> exact h3 _ (by decide)
      · rw [List.mem_singleton.mp hs] at hm
        cases hm
  exact left_alone hS hA hE hC hp hne (.inl rfl) s

/-! ### Concrete cases -/

/-- The code with some substitutions enabled. -/
def sem (E : List Sub) : Sem Unit where
  letter c := c.isAlpha
  number c := c.isDigit
  pred id s st t := (match guards.lookup id with
    | some x => decide (x ∈ E)
    | none => decide (t.length < st.length), s)
  state _ s _ _ := s
  act _ s _ _ := s
  restore saved _ := saved

def acts : Peg.Code Unit := fun id _ v t => (code id v t).getD .nil

theorem sem_progress (E : List Sub) : C45.ChecksProgress (sem E) := by
  intro id hid s st t h
  have h0 : guards.lookup id = none := by
    simp only [List.mem_cons, List.not_mem_nil, or_false] at hid
    rcases hid with rfl | rfl | rfl | rfl <;> rfl
  have h : (match guards.lookup id with
    | some x => decide (x ∈ E)
    | none => decide (t.length < st.length)) = true := h
  rw [h0] at h
  exact of_decide_eq_true h

theorem acts_obey : Obeys acts := fun id s v t x h => by show (code id v t).getD .nil = x; rw [h]; rfl

theorem sem_enabled (E : List Sub) : Enabled (sem E) E := by
  intro g hg s st t
  have h0 : guards.lookup g.1 = some g.2 := by
    have : ∀ g ∈ guards, guards.lookup g.1 = some g.2 := by decide
    exact this g hg
  show (match guards.lookup g.1 with
    | some x => decide (x ∈ E)
    | none => decide (t.length < st.length)) = _
  rw [h0]

theorem sem_classes (E : List Sub) : Classes (sem E) := by
  intro c hc
  have : c = '<' ∨ c = '>' ∨ c = '&' := by
    simp only [isSpecial, Bool.or_eq_true, beq_iff_eq] at hc
    rcases hc with (h | h) | h
    · exact .inl h
    · exact .inr (.inl h)
    · exact .inr (.inr h)
  rcases this with rfl | rfl | rfl <;> exact ⟨rfl, rfl⟩

/-- Marks are looked for by comparing. -/
instance (E : List Sub) (t : Text) : Decidable (Plain E t) := by unfold Plain; infer_instance

/-- A paragraph: an e-mail without `@`, a lone `<`, quotes, a colon, two lines. -/
example : ∃ n s', runV grammar (sem Subs.normal) acts n (.rule R.NormalGroup) "If a < b & c: \"ok\" (no. 1),\n\tthen x > 2-1!".toList ()
    "If a < b & c: \"ok\" (no. 1),\n\tthen x > 2-1!".toList =
    some (.ok s' [.slice [.str "If a ".toList, .special ['<'], .str " b ".toList, .special ['&'],
      .str " c: \"ok\" (no. 1),\n\tthen x ".toList, .special ['>'], .str " 2-1!".toList]] []) :=
  left_alone (sem_progress _) acts_obey (sem_enabled _) (sem_classes _) (by decide +kernel) (by decide) (.inl rfl) ()

/-- A listing with markup. -/
example : ∃ n s', runV grammar (sem Subs.verbatim) acts n (.rule R.NormalGroup) "a[*p] = {x}; // <b>".toList ()
    "a[*p] = {x}; // <b>".toList =
    some (.ok s' [.slice [.str "a[*p] = {x}; // ".toList, .special ['<'], .str "b".toList, .special ['>']]] []) :=
  left_alone (sem_progress _) acts_obey (sem_enabled _) (sem_classes _) (by decide +kernel) (by decide) (.inl rfl) ()

/-- A passthrough block. -/
example : ∃ n s', runV grammar (sem []) acts n (.rule R.NormalGroup) "<b>*p* {x}</b>".toList () "<b>*p* {x}</b>".toList =
    some (.ok s' [.slice [.str "<b>*p* {x}</b>".toList]] []) :=
  left_alone (sem_progress _) acts_obey (sem_enabled _) (sem_classes _) (by decide +kernel) (by decide) (.inl rfl) ()

/-- Finding: the backslash of an escaped apostrophe is removed where nothing is to be substituted (parser.peg:2478-2483 has no check):
`printf '\'a'` in a listing or a passthrough block loses a character. -/
theorem finding_escaped_apostrophe : runV grammar (sem []) acts 100 (.rule R.NormalGroup) "x\\'y".toList () "x\\'y".toList =
    some (.ok () [.slice [.str "x'y".toList]] []) := by
  kernel_rfl

/-- Finding: a text with the character U+FFFD around digits is taken for a place of the parser's own, whatever the substitutions. -/
theorem finding_place_holder : runV grammar (sem []) acts 100 (.rule R.NormalGroup) "x\uFFFD1\uFFFD".toList () "x\uFFFD1\uFFFD".toList =
    some (.ok () [.slice [.str ['x'], .holder ['1']]] []) := by
  kernel_rfl

end C58
end Verif
