import Verif.Model.RawLine
import Verif.Props.Ifeval
import Verif.Props.Blocks
import Verif.Props.Conditionals

/-!
# C50 — The lines that preprocessing acts upon

Which lines of a document are directives for the preprocessor, and how they are read: the rule `DocumentRawLine` (parser.peg:25-36).
-/
namespace Verif
namespace C50
open Peg Grammar C49 RawLine Ifeval
open C48 (firstLine)
open C35 (NameText)

/-! ### Hand-written recognisers and the grammar -/

theorem isSpace_isBlank : isSpace = isBlank := by
  funext c; unfold isSpace isBlank
  rw [Bool.or_comm]
  congr 1

theorem matchLit_pLit : ∀ (l t : Text), '\uFFFD' ∉ l → matchLit l t = pLit l t
  | [], t, _ => by simp [matchLit, pLit]
  | a :: l, [], h => by
    have : a ≠ '\uFFFD' := fun e => h (e ▸ List.mem_cons_self)
    simp [matchLit, pLit, this]
  | a :: l, c :: t, h => by
    have ih := matchLit_pLit l t (fun e => h (List.mem_cons_of_mem _ e))
    unfold matchLit
    by_cases hac : a = c
    · subst hac
      rw [if_pos rfl, ih]
      simp [pLit]
    · rw [if_neg hac]
      simp [pLit, hac]

/-- Success with nothing left. -/
def all {α : Type} (o : Option α) : Option Text := o.map (fun _ => [])

section
variable {σ : Type} {S : Sem σ}

theorem yields_pLit {l : List Char} (h : '\uFFFD' ∉ l) (t : Text) : Yields grammar S (.lit l) t (pLit l t) :=
  yields_lit.to (matchLit_pLit l t h)

theorem yields_plus_cls {c : Cls} (p : Char → Bool) (hp : ∀ x, c.has S.letter S.number x = p x) (t : Text) :
    Yields grammar S (.plus (.cls c)) t (if t.takeWhile p = [] then none else some (t.dropWhile p)) := by
  have e : c.has S.letter S.number = p := funext hp
  cases t with
  | nil => exact never_plus yields_cls_nil
  | cons x t =>
    cases h : p x with
    | true =>
      rw [List.takeWhile_cons_of_pos h, List.dropWhile_cons_of_pos h, if_neg (by simp)]
      refine yields_plus_step (yields_cls (by rw [hp, h])) ?_
      have := yields_star_cls (G := grammar) (S := S) (c := c) t
      rw [e] at this
      exact this
    | false =>
      rw [List.takeWhile_cons_of_neg (by simp [h]), if_pos rfl]
      exact never_plus (yields_cls_no (by rw [hp, h]))

theorem yields_name (t : Text) : Yields grammar S (.rule R.ConditionalVariableName) t (if t.takeWhile isName = [] then none else some (t.dropWhile isName)) := by
  refine yields_rule (yields_act (yields_plus_cls isName ?_ t))
  intro x; simp only [Cls.has, isName]; simp; ac_rfl

theorem yields_content (t : Text) : Yields grammar S (.rule R.ConditionalInclusionAttribute) t (if t.takeWhile isContent = [] then none else some (t.dropWhile isContent)) := by
  refine yields_rule (yields_act (yields_plus_cls isContent ?_ t))
  intro x; simp only [Cls.has, isContent]; simp; ac_rfl

theorem dropWhile_of_nil {p : Char → Bool} {t : Text} (h : t.takeWhile p = []) : t.dropWhile p = t := by
  have := List.takeWhile_append_dropWhile (p := p) (l := t)
  rw [h] at this; exact this

theorem yields_opt_plus {e : Exp} {p : Char → Bool} {t : Text} (h : Yields grammar S e t (if t.takeWhile p = [] then none else some (t.dropWhile p))) :
    Yields grammar S (.opt e) t (some (t.dropWhile p)) := by
  by_cases h0 : t.takeWhile p = []
  · rw [if_pos h0] at h
    rw [dropWhile_of_nil h0]
    exact yields_opt_none h
  · rw [if_neg h0] at h
    exact yields_opt_some h

theorem dropBlank (u : Text) : (u.dropWhile isBlank = [] ↔ u.all isBlank = true) := by
  induction u with
  | nil => simp
  | cons c u ih =>
    cases h : isBlank c with
    | true => rw [List.dropWhile_cons_of_pos h, ih]; simp [h]
    | false => rw [List.dropWhile_cons_of_neg (by simp [h])]; simp [h]

theorem yields_blanks_EOF (u : Text) : Yields grammar S (.seq (.star (.rule R.Space)) (.rule R.EOF)) u (if u.all isBlank then some [] else none) := by
  refine yields_seq yields_spaces ?_
  by_cases h : u.all isBlank = true
  · rw [if_pos h, (dropBlank u).mpr h]; exact yields_EOF_nil
  · rw [if_neg h]
    cases hd : u.dropWhile isBlank with
    | nil => exact absurd ((dropBlank u).mp hd) h
    | cons c v => exact never_EOF

theorem pLit_singleton (c : Char) (t : Text) : pLit [c] t = match t with | d :: u => if c = d then some u else none | [] => none := by
  cases t with
  | nil => simp [pLit]
  | cons d u => by_cases h : c = d <;> simp [pLit, h]

theorem yields_bracket (t : Text) : Yields grammar S (.seq (.lit ['[']) (.seq (.opt (.rule R.ConditionalInclusionAttribute)) (.seq (.lit [']']) (.seq (.star
    (.rule R.Space)) (.rule R.EOF))))) t (all (pContent t)) := by
  have hb := yields_pLit (S := S) (l := ['[']) (by decide) t
  rw [pLit_singleton] at hb
  cases t with
  | nil => exact never_seq hb
  | cons c t =>
    dsimp only at hb
    by_cases hc : '[' = c
    · subst hc
      rw [if_pos rfl] at hb
      refine yields_seq hb (yields_seq (yields_opt_plus (yields_content t)) ?_)
      have he := yields_pLit (S := S) (l := [']']) (by decide) (t.dropWhile isContent)
      rw [pLit_singleton] at he
      have e1 : pContent ('[' :: t) = pEnd (t.takeWhile isContent) (t.dropWhile isContent) := rfl
      rw [e1]
      cases hd : t.dropWhile isContent with
      | nil => rw [hd] at he; exact never_seq he
      | cons d u =>
        rw [hd] at he
        dsimp only at he
        unfold pEnd
        rw [isSpace_isBlank]
        dsimp only
        by_cases hdc : ']' = d
        · subst hdc
          rw [if_pos rfl] at he
          refine yields_seq he ((yields_blanks_EOF u).to ?_)
          by_cases h : u.all isBlank = true
          · rw [if_pos h, if_pos (And.intro rfl h)]; rfl
          · rw [if_neg h, if_neg (fun h' : _ ∧ _ => h h'.2)]; rfl
        · rw [if_neg hdc] at he
          rw [if_neg (fun h' : _ ∧ _ => hdc h'.1.symm)]
          exact never_seq he
    · rw [if_neg hc] at hb
      have : pContent (c :: t) = none := by unfold pContent; exact if_neg (Ne.symm hc)
      rw [this]
      exact never_seq hb

/-- `Ifdef` and `Ifndef`. -/
theorem yields_cond {i a : Nat} {kw : Text} (hkw : '\uFFFD' ∉ kw)
    (hG : grammar i = .act a (.scope (.seq (.lit kw) (.seq (.rule R.ConditionalVariableName)
      (.seq (.lit ['[']) (.seq (.opt (.rule R.ConditionalInclusionAttribute)) (.seq (.lit [']']) (.seq (.star (.rule R.Space)) (.rule R.EOF))))))))) (l : Text) :
    Yields grammar S (.rule i) l (all (pCond kw false l)) := by
  refine yields_rule ?_
  rw [hG]
  refine yields_act (yields_scope ?_)
  have hk := yields_pLit (S := S) hkw l
  unfold pCond
  cases h : pLit kw l with
  | none => rw [h] at hk; exact never_seq hk
  | some t =>
    rw [h] at hk
    refine yields_seq hk ?_
    have hn := yields_name (S := S) t
    by_cases h0 : t.takeWhile isName = []
    · rw [if_pos h0] at hn
      dsimp only
      rw [if_pos (⟨h0, rfl⟩ : t.takeWhile isName = [] ∧ false = false)]
      exact never_seq hn
    · rw [if_neg h0] at hn
      refine yields_seq hn ((yields_bracket _).to ?_)
      dsimp only
      rw [if_neg (fun h : _ ∧ _ => h0 h.1)]
      unfold all; rw [Option.map_map]; rfl

theorem yields_ifdef (l : Text) : Yields grammar S (.rule R.Ifdef) l (all (pCond "ifdef::".toList false l)) :=
  yields_cond (a := 6) (by decide) rfl l

theorem yields_ifndef (l : Text) : Yields grammar S (.rule R.Ifndef) l (all (pCond "ifndef::".toList false l)) :=
  yields_cond (a := 7) (by decide) rfl l

theorem yields_endif (l : Text) : Yields grammar S (.rule R.EndIf) l (all (pCond "endif::".toList true l)) := by
  refine yields_rule (yields_act (yields_scope ?_))
  have hk := yields_pLit (S := S) (l := "endif::".toList) (by decide) l
  unfold pCond
  cases h : pLit "endif::".toList l with
  | none => rw [h] at hk; exact never_seq hk
  | some t =>
    rw [h] at hk
    refine yields_seq hk (yields_seq (yields_opt_plus (yields_name t)) ((yields_bracket _).to ?_))
    dsimp only
    rw [if_neg (fun h : _ ∧ _ => nomatch h.2)]
    unfold all; rw [Option.map_map]; rfl

/-- `[\pL\pN]`. -/
def alnum (S : Sem σ) (c : Char) : Bool := S.letter c || S.number c

theorem yields_pName (t : Text) : Yields grammar S (.rule R.AttributeName) t ((pName (alnum S) t).map (·.2)) := by
  refine yields_rule (yields_act (yields_scope ?_))
  cases t with
  | nil => exact never_seq yields_cls_nil
  | cons c t =>
    unfold pName
    have h1 : (Cls.mk false ['_'] [] true true).has S.letter S.number c = (alnum S c || decide (c = '_')) := by
      simp [Cls.has, alnum]; ac_rfl
    have h2 : (Cls.mk false ['-'] [] true true).has S.letter S.number = (fun c => alnum S c || decide (c = '-')) := by
      funext x; simp [Cls.has, alnum]; ac_rfl
    dsimp only
    cases h : (alnum S c || decide (c = '_')) with
    | true =>
      rw [if_pos rfl]
      refine yields_seq (yields_cls (by rw [h1, h])) ?_
      have := yields_star_cls (G := grammar) (S := S) (c := ⟨false, ['-'], [], true, true⟩) t
      rw [h2] at this
      exact this
    | false =>
      rw [if_neg (by simp)]
      exact never_seq (yields_cls_no (by rw [h1, h]))

/-- A line without ends of line inside, as preprocessing reads them (no stray carriage return). -/
def NoEol (l : Text) : Prop := ∀ c ∈ l, isEol c = false

theorem NoEol.suffix {l u : Text} (h : NoEol l) (hu : u <:+ l) : NoEol u := fun c hc => h c (hu.subset hc)

theorem NoEol.firstLine {l : Text} (h : NoEol l) : firstLine l = l := by
  induction l with
  | nil => rfl
  | cons c l ih => rw [firstLine_cons l (h c List.mem_cons_self), ih (fun x hx => h x (List.mem_cons_of_mem _ hx))]

theorem NoEol.afterLine {l : Text} (h : NoEol l) : afterLine l = [] := by
  induction l with
  | nil => rfl
  | cons c l ih => rw [afterLine_cons l (h c List.mem_cons_self), ih (fun x hx => h x (List.mem_cons_of_mem _ hx))]

theorem NoEol.eol {l u : Text} (h : NoEol l) (hu : Grammar.eol l = some u) : l = [] ∧ u = [] := by
  cases l with
  | nil => cases hu; exact ⟨rfl, rfl⟩
  | cons c l =>
    exfalso
    have hc := h c List.mem_cons_self
    have hu : newline (c :: l) = some u := hu
    rw [newline_lit] at hu
    have h1 : '\n' ≠ c := by rintro rfl; cases hc
    have h2 : '\r' ≠ c := by rintro rfl; cases hc
    simp [matchLit, h1, h2] at hu

theorem pLit_some {k t u : Text} (h : pLit k t = some u) : t = k ++ u := by
  unfold pLit at h
  split at h
  · next hp =>
    obtain ⟨v, rfl⟩ := List.isPrefixOf_iff_prefix.mp hp
    cases h
    simp
  · cases h

theorem pName_some {al : Class} {t n u : Text} (h : pName al t = some (n, u)) : t = n ++ u ∧ NameText al n := by
  unfold pName at h
  split at h
  · cases h
  · next c cs =>
    split at h
    · next hc =>
      cases h
      refine ⟨by rw [List.cons_append, List.takeWhile_append_dropWhile], c, _, rfl, ?_, ?_⟩
      · simpa using hc
      · intro x hx
        have := List.all_eq_true.mp (List.all_takeWhile (p := fun c => al c || decide (c = '-')) (l := cs)) x hx
        simpa using this
    · cases h

theorem yields_blanks_EOL {u : Text} (h : NoEol u) : Yields grammar S (.seq (.star (.rule R.Space)) (.rule R.EOL)) u (if u.all isBlank then some [] else none) := by
  have := yields_blanks_eol (S := S) u
  rw [h.firstLine, h.afterLine] at this
  exact this

/-- One of the forms of `AttributeReset`. -/
theorem yields_resetForm {a : Nat} {start colon : Text} (h1 : '\uFFFD' ∉ start) (h2 : '\uFFFD' ∉ colon) {l : Text} (hl : NoEol l) :
    Yields grammar S (.act a (.scope (.seq (.lit start) (.seq (.rule R.AttributeName) (.seq (.lit colon) (.seq (.star (.rule R.Space)) (.rule R.EOL))))))) l
      (all (pResetForm (alnum S) start colon l)) := by
  refine yields_act (yields_scope ?_)
  have hk := yields_pLit (S := S) h1 l
  unfold pResetForm
  cases h : pLit start l with
  | none => rw [h] at hk; exact never_seq hk
  | some t =>
    rw [h] at hk
    refine yields_seq hk ?_
    have hn := yields_pName (S := S) t
    dsimp only
    unfold pResetEnd
    cases hp : pName (alnum S) t with
    | none => rw [hp] at hn; exact never_seq hn
    | some x =>
      obtain ⟨n, u⟩ := x
      rw [hp] at hn
      refine yields_seq hn ?_
      have hc := yields_pLit (S := S) h2 u
      dsimp only
      cases hq : pLit colon u with
      | none => rw [hq] at hc; exact never_seq hc
      | some v =>
        rw [hq] at hc
        have hv : NoEol v := by
          refine hl.suffix ⟨start ++ (n ++ colon), ?_⟩
          rw [pLit_some h, (pName_some hp).1, pLit_some hq]
          simp
        refine yields_seq hc ((yields_blanks_EOL hv).to ?_)
        dsimp only
        rw [isSpace_isBlank]
        by_cases hb : v.all isBlank = true
        · rw [if_pos hb, if_pos hb]; rfl
        · rw [if_neg hb, if_neg hb]; rfl

theorem yields_reset {l : Text} (hl : NoEol l) : Yields grammar S (.rule R.AttributeReset) l (all (pReset (alnum S) l)) := by
  refine yields_rule ?_
  have h1 := yields_resetForm (S := S) (a := 60) (start := ":!".toList) (colon := ":".toList) (by decide) (by decide) hl
  have h2 := yields_resetForm (S := S) (a := 61) (start := ":".toList) (colon := "!:".toList) (by decide) (by decide) hl
  unfold pReset
  cases h : pResetForm (alnum S) ":!".toList ":".toList l with
  | none => rw [h] at h1; exact yields_alt_right h1 h2
  | some n => rw [h] at h1; exact yields_alt_left h1

theorem pDelim_eq (c : Char) (k : Nat) (l : Text) : pDelim c k l = delimLen c k l := by
  unfold pDelim delimLen leading
  rw [isSpace_isBlank]

theorem yields_pDelim {i : Nat} {a b : Nat} {c : Char} {k : Nat} (hc : c ≠ '\uFFFD') (he : isEol c = false)
    (hG : grammar i = .act a (.scope (.seq (.act b (.scope (.seq (.lit (List.replicate k c)) (.star (.lit [c])))))
      (.seq (.star (.rule R.Space)) (.rule R.EOL))))) {l : Text} (hl : NoEol l) : Yields grammar S (.rule i) l (all (pDelim c k l)) := by
  have := yields_delimiter (S := S) hc he hG l
  rw [hl.firstLine, hl.afterLine] at this
  rw [pDelim_eq]
  refine this.to ?_
  cases delimLen c k l <;> rfl

theorem yields_pCode {l : Text} (hl : NoEol l) : Yields grammar S (.rule R.MarkdownCodeDelimiter) l (bif pCode l then some [] else none) := by
  refine yields_rule (yields_act (yields_scope ?_))
  have hk := yields_pLit (S := S) (l := "```".toList) (by decide) l
  unfold pCode
  cases h : pLit "```".toList l with
  | none => rw [h] at hk; exact never_seq hk
  | some t =>
    rw [h] at hk
    refine yields_seq hk ?_
    have hlang : Yields grammar S (.rule R.Language) t (if t.takeWhile isLanguage = [] then none else some (t.dropWhile isLanguage)) := by
      refine yields_rule (yields_act (yields_plus_cls isLanguage ?_ t))
      intro x; exact has_lang x
    dsimp only
    by_cases h0 : t.takeWhile isLanguage = []
    · rw [if_pos h0] at hlang
      rw [decide_eq_false (not_not_intro h0)]
      exact never_seq hlang
    · rw [if_neg h0] at hlang
      rw [decide_eq_true h0]
      refine yields_seq hlang ?_
      have hv : NoEol (t.dropWhile isLanguage) := by
        refine hl.suffix ((List.dropWhile_suffix _).trans ⟨"```".toList, (pLit_some h).symm⟩)
      rw [isSpace_isBlank, Bool.true_and]
      refine (yields_blanks_EOL hv).to ?_
      cases (t.dropWhile isLanguage).all isBlank <;> rfl

/-! ### `ifeval` -/

/-- One of the forms of a reference: an opening, a name, a closing brace. -/
def pRefForm (al : Class) (start : Text) (t : Text) : Option (Text × Text) :=
  match pLit start t with
  | none => none
  | some r => match pName al r with
    | none => none
    | some (n, u) => (pLit ['}'] u).map (fun v => (n, v))

theorem pRef_forms (al : Class) (t : Text) : (pRef al t).map (·.2) = ((pRefForm al "\\{".toList t).or (pRefForm al "{".toList t)).map (·.2) := by
  have inner : ∀ (f : Text → Operand) (r : Text), Option.map (fun x : Operand × Text => x.2) (match pName al r with
      | some (n, '}' :: r') => some (f n, r')
      | _ => none) = Option.map (fun x : Text × Text => x.2) (match pName al r with
      | none => none
      | some (n, u) => (pLit ['}'] u).map (fun v => (n, v))) := by
    intro f r
    cases h : pName al r with
    | none => rfl
    | some x =>
      obtain ⟨n, u⟩ := x
      dsimp only
      rw [pLit_singleton]
      cases u with
      | nil => rfl
      | cons c u =>
        dsimp only
        by_cases hc : '}' = c
        · subst hc; rfl
        · rw [if_neg hc]
          split
          · next h => cases h; exact absurd rfl hc
          · rfl
  cases t with
  | nil => rfl
  | cons a t =>
    by_cases h1 : a = '{'
    · subst h1
      have e1 : pRefForm al "\\{".toList ('{' :: t) = none := rfl
      have e2 : pLit "{".toList ('{' :: t) = some t := by simp [pLit]
      rw [e1, Option.none_or]
      unfold pRefForm
      rw [e2]
      exact inner (fun n => .ref (String.ofList n)) t
    by_cases h2 : a = '\\'
    · subst h2
      have e1 : pRefForm al "{".toList ('\\' :: t) = none := rfl
      rw [e1, Option.or_none]
      cases t with
      | nil => rfl
      | cons b t =>
        by_cases h3 : b = '{'
        · subst h3
          have e2 : pLit "\\{".toList ('\\' :: '{' :: t) = some t := by simp [pLit]
          unfold pRefForm
          rw [e2]
          exact inner (fun _ => .lit (.other 1)) t
        · have e3 : pRef al ('\\' :: b :: t) = none := by
            unfold pRef
            split
            · next h => cases h; exact absurd rfl h3
            · next h => cases h
            · rfl
          have e4 : pLit "\\{".toList ('\\' :: b :: t) = none := by simp [pLit, Ne.symm h3]
          rw [e3]; unfold pRefForm; rw [e4]; rfl
    · rw [C35.pRef_no al a t h1 h2]
      have e4 : pLit "\\{".toList (a :: t) = none := by simp [pLit, Ne.symm h2]
      have e5 : pLit "{".toList (a :: t) = none := by simp [pLit, Ne.symm h1]
      unfold pRefForm; rw [e4, e5]; rfl

theorem yields_refForm {a : Nat} {start : Text} (hs : '\uFFFD' ∉ start) {e : Exp} (t : Text)
    (he : ∀ o, Yields grammar S (.seq (.lit start) (.seq (.rule R.AttributeName) (.lit ['}']))) t o → Yields grammar S e t o) :
    Yields grammar S (.act a (.scope e)) t ((pRefForm (alnum S) start t).map (·.2)) := by
  refine yields_act (yields_scope (he _ ?_))
  have hk := yields_pLit (S := S) hs t
  unfold pRefForm
  cases h : pLit start t with
  | none => rw [h] at hk; exact never_seq hk
  | some r =>
    rw [h] at hk
    refine yields_seq hk ?_
    have hn := yields_pName (S := S) r
    dsimp only
    cases hp : pName (alnum S) r with
    | none => rw [hp] at hn; exact never_seq hn
    | some x =>
      obtain ⟨n, u⟩ := x
      rw [hp] at hn
      refine yields_seq hn ?_
      have := yields_pLit (S := S) (l := ['}']) (by decide) u
      dsimp only
      cases hq : pLit ['}'] u with
      | none => rw [hq] at this; exact this
      | some v => rw [hq] at this; exact this

theorem matchLit_append : ∀ (a b t : Text), matchLit (a ++ b) t = (matchLit a t).bind (matchLit b)
  | [], b, t => rfl
  | x :: a, b, [] => by
    rw [List.cons_append]
    unfold matchLit
    by_cases h : x = '\uFFFD'
    · rw [if_pos h, if_pos h]; exact matchLit_append a b []
    · rw [if_neg h, if_neg h]; rfl
  | x :: a, b, c :: t => by
    rw [List.cons_append]
    unfold matchLit
    by_cases h : x = c
    · rw [if_pos h, if_pos h]; exact matchLit_append a b t
    · rw [if_neg h, if_neg h]; rfl

theorem yields_lit_lit {a b : Text} {e : Exp} {t : Text} {o : Option Text} (h : Yields grammar S (.seq (.lit (a ++ b)) e) t o) :
    Yields grammar S (.seq (.lit a) (.seq (.lit b) e)) t o := by
  intro st s r hr
  refine h st s r ?_
  rcases eval_seq.mp hr with ⟨s1, h1, rfl⟩ | ⟨s1, u, h1, h2⟩
  · refine eval_seq.mpr (Or.inl ⟨_, eval_lit.mpr ?_, rfl⟩)
    have := eval_lit.mp h1
    rw [matchLit_append]
    cases hm : matchLit a t with
    | none => rw [hm] at this; exact this
    | some v => rw [hm] at this; cases this
  · have e1 := eval_lit.mp h1
    have hm : matchLit a t = some u ∧ s1 = s := by
      cases hm : matchLit a t with
      | none => rw [hm] at e1; cases e1
      | some v => rw [hm] at e1; cases e1; exact ⟨rfl, rfl⟩
    obtain ⟨hm, rfl⟩ := hm
    rcases eval_seq.mp h2 with ⟨s2, h3, rfl⟩ | ⟨s2, v, h3, h4⟩
    · refine eval_seq.mpr (Or.inl ⟨_, eval_lit.mpr ?_, rfl⟩)
      have := eval_lit.mp h3
      rw [matchLit_append, hm]
      exact this
    · refine eval_seq.mpr (Or.inr ⟨_, _, eval_lit.mpr ?_, h4⟩)
      have := eval_lit.mp h3
      rw [matchLit_append, hm]
      exact this

theorem yields_pRef (t : Text) : Yields grammar S (.rule R.AttributeReferenceValue) t ((pRef (alnum S) t).map (·.2)) := by
  rw [pRef_forms]
  refine yields_rule ?_
  have h1 := yields_refForm (S := S) (a := 104) (start := "\\{".toList) (by decide) (e := .seq (.lit ['\\']) (.seq (.lit ['{']) (.seq (.rule R.AttributeName) (.lit ['}'])))) t
    (fun o h => yields_lit_lit h)
  have h2 := yields_refForm (S := S) (a := 105) (start := "{".toList) (by decide) (e := .seq (.lit ['{']) (.seq (.rule R.AttributeName) (.lit ['}']))) t (fun o h => h)
  cases h : pRefForm (alnum S) "\\{".toList t with
  | none => rw [h] at h1; exact yields_alt_right h1 h2
  | some n => rw [h] at h1; exact yields_alt_left h1

theorem yields_quotedRef {a : Nat} {q : Char} (hq : '\uFFFD' ∉ [q]) (t : Text) :
    Yields grammar S (.act a (.scope (.seq (.lit [q]) (.seq (.rule R.AttributeReferenceValue) (.lit [q]))))) t ((pQuotedRef (alnum S) q t).map (·.2)) := by
  refine yields_act (yields_scope ?_)
  have hk := yields_pLit (S := S) hq t
  rw [pLit_singleton] at hk
  unfold pQuotedRef
  cases t with
  | nil => exact never_seq hk
  | cons c r =>
    dsimp only at hk ⊢
    by_cases hc : q = c
    · subst hc
      rw [if_pos rfl] at hk
      rw [if_pos rfl]
      refine yields_seq hk ?_
      have hr := yields_pRef (S := S) r
      cases h : pRef (alnum S) r with
      | none => rw [h] at hr; exact never_seq hr
      | some x =>
        obtain ⟨o, u⟩ := x
        rw [h] at hr
        refine yields_seq hr ?_
        have he := yields_pLit (S := S) hq u
        rw [pLit_singleton] at he
        cases u with
        | nil => exact he
        | cons d u =>
          dsimp only at he ⊢
          by_cases hd : q = d
          · rw [if_pos hd] at he; rw [if_pos hd.symm]; exact he
          · rw [if_neg hd] at he; rw [if_neg (Ne.symm hd)]; exact he
    · rw [if_neg hc] at hk
      rw [if_neg (Ne.symm hc)]
      exact never_seq hk

theorem yields_quotedWord {a b : Nat} {q : Char} (hq : '\uFFFD' ∉ [q]) (t : Text) :
    Yields grammar S (.act a (.scope (.seq (.lit [q]) (.seq (.act b (.plus (.cls ⟨false, [',', '?', '!', ';', '_', '-'], [], true, true⟩))) (.lit [q]))))) t
      ((pQuotedWord (alnum S) q t).map (·.2)) := by
  refine yields_act (yields_scope ?_)
  have hk := yields_pLit (S := S) hq t
  rw [pLit_singleton] at hk
  unfold pQuotedWord
  cases t with
  | nil => exact never_seq hk
  | cons c r =>
    dsimp only at hk ⊢
    by_cases hc : q = c
    · subst hc
      rw [if_pos rfl] at hk
      rw [if_pos rfl]
      refine yields_seq hk ?_
      have hr := yields_act (id := b) (yields_plus_cls (S := S) (c := ⟨false, [',', '?', '!', ';', '_', '-'], [], true, true⟩) (isWord (alnum S)) (by
        intro x; simp [Cls.has, isWord, alnum]; ac_rfl) r)
      by_cases h : r.takeWhile (isWord (alnum S)) = []
      · rw [if_pos h] at hr ⊢; exact never_seq hr
      · rw [if_neg h] at hr ⊢
        refine yields_seq hr ?_
        have he := yields_pLit (S := S) hq (r.dropWhile (isWord (alnum S)))
        rw [pLit_singleton] at he
        cases hu : r.dropWhile (isWord (alnum S)) with
        | nil => rw [hu] at he; exact he
        | cons d u =>
          rw [hu] at he
          dsimp only at he ⊢
          by_cases hd : q = d
          · rw [if_pos hd] at he; rw [if_pos hd.symm]; exact he
          · rw [if_neg hd] at he; rw [if_neg (Ne.symm hd)]; exact he
    · rw [if_neg hc] at hk
      rw [if_neg (Ne.symm hc)]
      exact never_seq hk

theorem yields_digits (t : Text) : Yields grammar S (.plus (.cls ⟨false, [], [('0', '9')], false, false⟩)) t
    (if t.takeWhile isDigit = [] then none else some (t.dropWhile isDigit)) := by
  refine yields_plus_cls isDigit ?_ t
  intro x; simp [Cls.has, isDigit]

/-- The value of an integer apart (it may be too large for an `int`: the action then returns an error). -/
theorem yields_pInteger {t u : Text} {n : Int} (h : pInteger t = some (n, u)) : Yields grammar S (.rule R.Integer) t (some u) := by
  refine yields_rule (yields_act (yields_scope ?_))
  have hk := yields_pLit (S := S) (l := ['-']) (by decide) t
  rw [pLit_singleton] at hk
  have done : ∀ r : Text, r.takeWhile isDigit ≠ [] → r.dropWhile isDigit = u → Yields grammar S (.plus (.cls ⟨false, [], [('0', '9')], false, false⟩)) r (some u) := by
    intro r hr hu
    have := yields_digits (S := S) r
    rw [if_neg hr, hu] at this
    exact this
  unfold pInteger at h
  split at h
  · next r =>
    refine yields_seq (yields_opt_some hk) ?_
    dsimp only at h
    split at h
    · cases h
    · next hr =>
      split at h
      · cases h; exact done r hr rfl
      · cases h
  · next hne =>
    have hn : Never grammar S (.lit ['-']) t := by
      refine hk.to ?_
      cases t with
      | nil => rfl
      | cons c t => exact if_neg (fun e => hne t (by rw [e]))
    refine yields_seq (yields_opt_none hn) ?_
    dsimp only at h
    split at h
    · cases h
    · next hr =>
      split at h
      · cases h; exact done t hr rfl
      · cases h

theorem yields_pMember {t u : Text} {o : Operand} (h : pMember (alnum S) t = some (o, u)) : Yields grammar S (.rule R.IfevalExpressionMember) t (some u) := by
  refine yields_rule ?_
  have h1 := yields_quotedRef (S := S) (a := 10) (q := '"') (by decide) t
  have h2 := yields_quotedRef (S := S) (a := 11) (q := '\'') (by decide) t
  have h3 := yields_act (id := 12) (yields_pRef (S := S) t)
  have h4 := yields_quotedWord (S := S) (a := 14) (b := 13) (q := '"') (by decide) t
  have h5 := yields_quotedWord (S := S) (a := 16) (b := 15) (q := '\'') (by decide) t
  unfold pMember at h
  have step : ∀ {e f : Exp} {x y : Option (Operand × Text)}, x.or y = some (o, u) → Yields grammar S e t (x.map (·.2)) →
      (y = some (o, u) → Yields grammar S f t (some u)) → Yields grammar S (.alt e f) t (some u) := by
    intro e f x y hxy he hf
    cases x with
    | none => exact yields_alt_right he (hf hxy)
    | some x => cases hxy; exact yields_alt_left he
  refine step h h1 (fun h => step h h2 (fun h => step h h3 (fun h => step h h4 (fun h => step h h5 (fun h => ?_)))))
  cases hp : pInteger t with
  | none => rw [hp] at h; cases h
  | some x =>
    obtain ⟨n, v⟩ := x
    rw [hp] at h
    cases h
    exact yields_pInteger hp

theorem yields_pOperator (t : Text) : Yields grammar S (.rule R.IfevalExpressionOperand) t ((pOperator t).map (·.2)) := by
  refine yields_rule ?_
  have lit : ∀ (a : Nat) (l : Text), '\uFFFD' ∉ l → Yields grammar S (.act a (.lit l)) t (pLit l t) := fun a l hl => yields_act (yields_pLit hl t)
  have step : ∀ {a : Nat} {l : Text} {op : CmpOp} {f : Exp} {ops : List (Text × CmpOp)}, '\uFFFD' ∉ l → Yields grammar S f t ((pFirst ops t).map (·.2)) →
      Yields grammar S (.alt (.act a (.lit l)) f) t ((pFirst ((l, op) :: ops) t).map (·.2)) := by
    intro a l op f ops hl hf
    have := lit a l hl
    unfold pFirst
    cases h : pLit l t with
    | none => rw [h] at this; exact yields_alt_right this hf
    | some r => rw [h] at this; exact yields_alt_left this
  refine step (by decide) (step (by decide) (step (by decide) (step (by decide) (step (by decide) ?_))))
  have := lit 22 ">=".toList (by decide)
  unfold pFirst
  cases h : pLit ">=".toList t with
  | none => rw [h] at this; exact this
  | some r => rw [h] at this; exact this

theorem yields_ifeval {l : Text} {c : Cond} (h : pIfeval (alnum S) l = some c) : Yields grammar S (.rule R.Ifeval) l (some []) := by
  refine yields_rule (yields_act (yields_scope ?_))
  unfold pIfeval at h
  have hk := yields_pLit (S := S) (l := "ifeval::[".toList) (by decide) l
  cases h1 : pLit "ifeval::[".toList l with
  | none => rw [h1] at h; cases h
  | some t =>
    rw [h1] at h hk
    dsimp only at h
    cases h2 : pMember (alnum S) t with
    | none => rw [h2] at h; cases h
    | some x =>
      obtain ⟨o1, t2⟩ := x
      rw [h2] at h
      dsimp only at h
      cases h3 : pOperator (t2.dropWhile isSpace) with
      | none => rw [h3] at h; cases h
      | some y =>
        obtain ⟨op, t3⟩ := y
        rw [h3] at h
        dsimp only at h
        unfold pRight at h
        cases h4 : pMember (alnum S) (t3.dropWhile isSpace) with
        | none => rw [h4] at h; cases h
        | some z =>
          obtain ⟨o2, t4⟩ := z
          rw [h4] at h
          dsimp only at h
          have hclose : ∃ v, t4 = ']' :: v ∧ v.dropWhile isBlank = [] := by
            split at h
            · next hc =>
              unfold pClose at hc
              split at hc
              · next v => exact ⟨v, rfl, by simpa [isSpace_isBlank] using hc⟩
              · cases hc
            · cases h
          obtain ⟨v, rfl, hv⟩ := hclose
          rw [isSpace_isBlank] at h3 h4
          have hop := yields_pOperator (S := S) (t2.dropWhile isBlank)
          rw [h3] at hop
          refine yields_lit_lit (a := "ifeval::".toList) (b := ['[']) (yields_seq hk (yields_seq (yields_pMember h2) (yields_seq yields_spaces (yields_seq hop (yields_seq yields_spaces
            (yields_seq (yields_pMember h4) (yields_seq (u := v) ?_ ?_)))))))
          · have := yields_pLit (S := S) (l := [']']) (by decide) (']' :: v)
            rw [pLit_singleton] at this
            exact this
          · have := yields_blanks_EOF (S := S) v
            rw [if_pos ((dropBlank v).mp hv)] at this
            exact this

/-! ### The code of the grammar -/

/-- The actions of the rules for delimiters (parser.peg:739-808). -/
def delimActs : List (Nat × Char × String) :=
  [(119, '/', "comment"), (121, '=', "example"), (123, '`', "fenced"), (127, '-', "listing"), (131, '.', "listing"), (133, '+', "pass"), (135, '_', "quote"), (137, '*', "sidebar")]

/-- What is assumed of the code of the grammar. `elem` is the element that the last of the actions below returned; the texts are
the ones that actions see (`c.text`), and the values of the labels are the ones that the rules give them, by definition of the
functions of `Verif.Model.RawLine`. `sects` and `within` are in `c.globalStore` (parser_ext.go:218-236), which is only changed by
`DelimitedBlockElements` (parser.peg:277), an entry point. -/
structure RawCode (S : Sem σ) (elem : σ → Option RawElem) (sects within : σ → Bool) : Prop where
  /-- punctuation is neither letters nor numbers (it is not in the Unicode categories L and N) -/
  cls : ∀ c ∈ "/=`-.+_*:! ,".toList, alnum S c = false
  enabled : ∀ s st t, (S.pred 1 s st t).1 = sects s
  outside : ∀ s st t, (S.pred 2 s st t).1 = !within s
  level : ∀ s p t, (S.pred 4 s (p ++ t) t).1 = decide (leading '=' p ≤ 6)
  pred_keeps : ∀ id s st t, sects (S.pred id s st t).2 = sects s ∧ within (S.pred id s st t).2 = within s
  act_keeps : ∀ id s t u, sects (S.act id s t u) = sects s ∧ within (S.act id s t u) = within s
  state_keeps : ∀ id s st t, id ≠ 50 → sects (S.state id s st t) = sects s ∧ within (S.state id s st t) = within s
  restore_keeps : ∀ a b, sects a = sects b → within a = within b → sects (S.restore a b) = sects a ∧ within (S.restore a b) = within a
  back : ∀ a b, elem (S.restore a b) = elem a
  passes : ∀ s t u, elem (S.act 0 s t u) = elem s ∧ elem (S.act 117 s t u) = elem s
  ifdef : ∀ s p, elem (S.act 6 s p []) = (pCond "ifdef::".toList false p).map (fun x => .cond (.ifdef (String.ofList x.1) x.2))
  ifndef : ∀ s p, elem (S.act 7 s p []) = (pCond "ifndef::".toList false p).map (fun x => .cond (.ifndef (String.ofList x.1) x.2))
  ifeval : ∀ s p, elem (S.act 9 s p []) = (pIfeval (alnum S) p).map .cond
  endif : ∀ s p, elem (S.act 23 s p []) = some .endif
  reset : ∀ id ∈ [60, 61], ∀ s p, elem (S.act id s p []) = (pReset (alnum S) p).map (fun n => .reset (String.ofList n) p)
  delim : ∀ x ∈ delimActs, ∀ s p, elem (S.act x.1 s p []) = some (.delim x.2.2 (leading x.2.1 p) p)
  code : ∀ s p, elem (S.act 124 s p []) = some (.delim "fenced" 3 p)
  sect : ∀ s p, elem (S.act 5 s p []) = some (.sect (leading '=' p - 1 : Nat) p)
  decl : ∀ s p, ∃ v, elem (S.act 53 s p []) = ((pLit ":".toList p).bind (pName (alnum S))).map (fun x => .decl (String.ofList x.1) v p)
  incl : ∀ s p, ∃ i, elem (S.act 26 s p []) = some (.incl i)

variable {elem : σ → Option RawElem} {sects within : σ → Bool}

/-- What is returned for the line. -/
def read (elem : σ → Option RawElem) : Res σ → Option RawElem
  | .fail _ => none
  | .ok s _ => elem s

/-- No rule refers to `DelimitedBlockElements`, the only one with code that changes the store. -/
theorem noBlock_ok : (List.range 338).all (fun i => i == R.DelimitedBlockElements || quiet [50] (fun j => !(j == R.DelimitedBlockElements)) (grammar i)) = true := by
  decide +kernel

theorem store_kept (hS : RawCode S elem sects within) {e : Exp} (he : quiet [50] (fun j => !(j == R.DelimitedBlockElements)) e = true) {st : Text} {s : σ} {t : Text} {r : Res σ}
    (h : Eval grammar S e st s t r) : sects r.st = sects s ∧ within r.st = within s := by
  obtain ⟨n, h⟩ := h
  have hid : ∀ id : Nat, sects s = sects s := fun _ => rfl
  -- predicates and actions with number 50 do not exist; states do
  have := run_keeps (G := grammar) (S := S) (fun s => (sects s, within s)) [50] (fun j => !(j == R.DelimitedBlockElements)) ?_ ?_ ?_ ?_ ?_ n e st s t r he h
  · exact ⟨congrArg Prod.fst this, congrArg Prod.snd this⟩
  · intro i hi
    by_cases hlt : i < 338
    · have := List.all_eq_true.mp noBlock_ok i (List.mem_range.mpr hlt)
      simp only [Bool.or_eq_true, beq_iff_eq] at this
      exact this.resolve_left (by simpa using hi)
    · rw [grammar_none hlt]; rfl
  · intro id s st t _
    rw [(hS.pred_keeps id s st t).1, (hS.pred_keeps id s st t).2]
  · intro id s st t hid
    have := hS.state_keeps id s st t (by simpa using hid)
    rw [this.1, this.2]
  · intro id s t u _
    rw [(hS.act_keeps id s t u).1, (hS.act_keeps id s t u).2]
  · intro a b hab
    have h1 := congrArg Prod.fst hab
    have h2 := congrArg Prod.snd hab
    dsimp only at h1 h2 ⊢
    rw [(hS.restore_keeps a b h1 h2).1, (hS.restore_keeps a b h1 h2).2]

/-- The result on the line `l`: failure, or success on the whole line with an element. -/
def result (elem : σ → Option RawElem) : Res σ → Option (Option RawElem)
  | .fail _ => none
  | .ok s _ => some (elem s)

/-- All results on the line satisfy `Q`, and leave nothing. -/
def Out (S : Sem σ) (elem : σ → Option RawElem) (sects within : σ → Bool) (se wb : Bool) (e : Exp) (l : Text) (Q : Option (Option RawElem) → Prop) : Prop :=
  ∀ st s r, sects s = se → within s = wb → Eval grammar S e st s l r → Q (result elem r) ∧ (r.rest = none ∨ r.rest = some [])

theorem out_rule {se wb : Bool} {i : Nat} {l : Text} {Q : Option (Option RawElem) → Prop} (h : Out S elem sects within se wb (grammar i) l Q) :
    Out S elem sects within se wb (.rule i) l Q :=
  fun _ s r hs hw hr => h _ s r hs hw (eval_rule.mp hr)

theorem out_alt (hS : RawCode S elem sects within) {se wb : Bool} {a b : Exp} (ha : quiet [50] (fun j => !(j == R.DelimitedBlockElements)) a = true) {l : Text}
    {Q R : Option (Option RawElem) → Prop} (h1 : Out S elem sects within se wb a l Q) (h2 : Out S elem sects within se wb b l R) :
    Out S elem sects within se wb (.alt a b) l (fun o => (o ≠ none ∧ Q o) ∨ (Q none ∧ R o)) := by
  intro st s r hs hw h
  rcases eval_alt.mp h with ⟨s1, h3, h4⟩ | ⟨s1, u, h3, rfl⟩
  · have k := store_kept hS ha h3
    have kr := hS.restore_keeps s s1 k.1.symm k.2.symm
    have h5 := h2 _ _ _ (kr.1.trans hs) (kr.2.trans hw) h4
    exact ⟨Or.inr ⟨(h1 _ _ _ hs hw h3).1, h5.1⟩, h5.2⟩
  · have := h1 _ _ _ hs hw h3
    exact ⟨Or.inl ⟨(fun e => nomatch e), this.1⟩, this.2⟩

/-- A rule whose action gives the element. -/
theorem out_act {se wb : Bool} {i id : Nat} {e : Exp} (hG : grammar i = .act id e) {l : Text} {o : Option Text} (hy : Yields grammar S (.rule i) l o) (ho : o = none ∨ o = some [])
    {Q : Option (Option RawElem) → Prop} (hn : o = none → Q none) (hs : o = some [] → ∀ s, Q (some (elem (S.act id s l [])))) :
    Out S elem sects within se wb (.rule i) l Q := by
  intro st s r _ _ h
  have hr := hy _ _ _ h
  have h := eval_rule.mp h
  rw [hG] at h
  rcases eval_act.mp h with ⟨s1, h1, rfl⟩ | ⟨s1, u, h1, rfl⟩
  · exact ⟨hn hr.symm, Or.inl rfl⟩
  · have h2 : some u = o := hr
    rcases ho with rfl | rfl
    · cases h2
    · cases h2
      exact ⟨hs rfl _, Or.inr rfl⟩

theorem all_cases {α : Type} (o : Option α) : all o = none ∨ all o = some [] := by
  cases o
  · exact Or.inl rfl
  · exact Or.inr rfl

theorem all_none {α : Type} {o : Option α} (h : all o = none) : o = none := by cases o; rfl; cases h

theorem all_some {α : Type} {o : Option α} (h : all o = some []) : ∃ x, o = some x := by cases o; cases h; exact ⟨_, rfl⟩

/-- A rule that succeeds exactly when a function does, with an action that returns what the function gives. -/
theorem out_fun {α : Type} {se wb : Bool} {i id : Nat} {e : Exp} (hG : grammar i = .act id e) {l : Text} (f : Option α) (g : α → RawElem)
    (hy : Yields grammar S (.rule i) l (all f)) (hg : ∀ s, ∀ x, f = some x → elem (S.act id s l []) = some (g x)) :
    Out S elem sects within se wb (.rule i) l (fun o => o = f.map (fun x => some (g x))) := by
  refine out_act hG hy (all_cases _) (fun h => ?_) (fun h s => ?_)
  · rw [all_none h]; rfl
  · obtain ⟨x, hx⟩ := all_some h
    rw [hg s x hx, hx]; rfl

theorem Out.mono {se wb : Bool} {e : Exp} {l : Text} {Q R : Option (Option RawElem) → Prop} (h : Out S elem sects within se wb e l Q) (hQR : ∀ o, Q o → R o) :
    Out S elem sects within se wb e l R :=
  fun st s r h1 h2 h3 => ⟨hQR _ (h st s r h1 h2 h3).1, (h st s r h1 h2 h3).2⟩

/-- Two rules with known results, in order. -/
theorem out_or (hS : RawCode S elem sects within) {se wb : Bool} {a b : Exp} (ha : quiet [50] (fun j => !(j == R.DelimitedBlockElements)) a = true) {l : Text}
    {x y : Option (Option RawElem)} (h1 : Out S elem sects within se wb a l (fun o => o = x)) (h2 : Out S elem sects within se wb b l (fun o => o = y)) :
    Out S elem sects within se wb (.alt a b) l (fun o => o = x.or y) := by
  refine (out_alt hS ha h1 h2).mono ?_
  rintro o (⟨h, rfl⟩ | ⟨h, rfl⟩)
  · cases o with
    | none => exact absurd rfl h
    | some o => rfl
  · rw [← h]; rfl

/-! ### Conditionals -/

/-- `ifdef`, `ifndef`, `ifeval`, `endif`. -/
def condOf (S : Sem σ) (l : Text) : Option RawElem :=
  ((pCond "ifdef::".toList false l).map (fun x => RawElem.cond (.ifdef (String.ofList x.1) x.2))).or <|
  ((pCond "ifndef::".toList false l).map (fun x => RawElem.cond (.ifndef (String.ofList x.1) x.2))).or <|
  ((pIfeval (alnum S) l).map RawElem.cond).or <|
  (pCond "endif::".toList true l).map (fun _ => RawElem.endif)

theorem yields_ifeval_cases {l : Text} : ∀ st s r, Eval grammar S (.rule R.Ifeval) st s l r → r.rest = none ∨ r.rest = some [] := by
  intro st s r h
  have h := eval_rule.mp h
  rcases eval_act.mp h with ⟨s1, h1, rfl⟩ | ⟨s1, u, h1, rfl⟩
  · exact Or.inl rfl
  · right
    rcases eval_scope.mp h1 with ⟨s2, _, e⟩ | ⟨s2, v, h2, e⟩
    · cases e
    · cases e
      -- the last one of the sequence is the end of the text
      have last : ∀ {a b : Exp} {st : Text} {s s' : σ} {t u : Text}, Eval grammar S (.seq a b) st s t (.ok s' u) → ∃ s1 v, Eval grammar S b st s1 v (.ok s' u) := by
        intro a b st s s' t u h
        rcases eval_seq.mp h with ⟨_, _, e⟩ | ⟨s1, v, _, h⟩
        · cases e
        · exact ⟨s1, v, h⟩
      obtain ⟨_, _, h⟩ := last h2
      obtain ⟨_, _, h⟩ := last h
      obtain ⟨_, _, h⟩ := last h
      obtain ⟨_, _, h⟩ := last h
      obtain ⟨_, _, h⟩ := last h
      obtain ⟨_, _, h⟩ := last h
      obtain ⟨_, _, h⟩ := last h
      obtain ⟨_, _, h⟩ := last h
      obtain ⟨_, w, h⟩ := last h
      cases w with
      | nil => exact (yields_EOF_nil _ _ _ h : (Res.ok s1 u).rest = some [])
      | cons c w => cases never_EOF _ _ _ h

theorem pCond_start {kw l : Text} {b : Bool} {x : Text × Option Text} (h : pCond kw b l = some x) : kw <+: l := by
  unfold pCond at h
  cases hp : pLit kw l with
  | none => rw [hp] at h; cases h
  | some t => exact ⟨t, (pLit_some hp).symm⟩

theorem out_cond (hS : RawCode S elem sects within) {se wb : Bool} {l : Text} :
    Out S elem sects within se wb (.rule R.ConditionalInclusion) l (fun o => o.join = condOf S l ∧ (o ≠ none → ∃ k ∈ ["ifdef::", "ifndef::", "ifeval::", "endif::"], k.toList <+: l)) := by
  have h1 : Out S elem sects within se wb (.rule R.Ifdef) l _ := out_fun (id := 6) rfl (pCond "ifdef::".toList false l) (fun x => .cond (.ifdef (String.ofList x.1) x.2)) (yields_ifdef l)
    (fun s x hx => by rw [hS.ifdef, hx]; rfl)
  have h2 : Out S elem sects within se wb (.rule R.Ifndef) l _ := out_fun (id := 7) rfl (pCond "ifndef::".toList false l) (fun x => .cond (.ifndef (String.ofList x.1) x.2)) (yields_ifndef l)
    (fun s x hx => by rw [hS.ifndef, hx]; rfl)
  have h4 : Out S elem sects within se wb (.rule R.EndIf) l _ := out_fun (id := 23) rfl (pCond "endif::".toList true l) (fun _ => .endif) (yields_endif l)
    (fun s x hx => hS.endif s l)
  have h3 : Out S elem sects within se wb (.rule R.Ifeval) l (fun o => o.join = (pIfeval (alnum S) l).map .cond ∧ (o ≠ none → "ifeval::".toList <+: l)) := by
    intro st s r hs hw h
    refine ⟨⟨?_, ?_⟩, yields_ifeval_cases st s r h⟩
    · cases hp : pIfeval (alnum S) l with
      | some c =>
        have hy := yields_ifeval hp _ _ _ h
        have h := eval_rule.mp h
        rcases eval_act.mp h with ⟨s1, h1, rfl⟩ | ⟨s1, u, h1, rfl⟩
        · cases hy
        · cases hy
          show (some (elem (S.act 9 s1 l []))).join = _
          rw [hS.ifeval, hp]; rfl
      | none =>
        have hc := yields_ifeval_cases st s r h
        have h := eval_rule.mp h
        rcases eval_act.mp h with ⟨s1, h1, rfl⟩ | ⟨s1, u, h1, rfl⟩
        · rfl
        · rcases hc with hc | hc
          · cases hc
          · cases hc
            show (some (elem (S.act 9 s1 l []))).join = _
            rw [hS.ifeval, hp]; rfl
    · intro ho
      cases hp : pLit "ifeval::".toList l with
      | some t => exact ⟨t, (pLit_some hp).symm⟩
      | none =>
        have hk := yields_pLit (S := S) (l := "ifeval::".toList) (by decide) l
        rw [hp] at hk
        have : Never grammar S (.rule R.Ifeval) l := yields_rule (yields_act (yields_scope (never_seq hk)))
        have := this _ _ _ h
        cases r with
        | fail s' => exact absurd rfl ho
        | ok s' u => cases this
  refine out_rule ((out_alt hS (by decide +kernel) h1 (out_alt hS (by decide +kernel) h2 (out_alt hS (by decide +kernel) h3 h4))).mono ?_)
  intro o ho
  unfold condOf
  rcases ho with ⟨hn, rfl⟩ | ⟨e1, ho⟩
  · cases hp : pCond "ifdef::".toList false l with
    | none => rw [hp] at hn; exact absurd rfl hn
    | some x => exact ⟨rfl, fun _ => ⟨"ifdef::", by decide, pCond_start hp⟩⟩
  have e1 : pCond "ifdef::".toList false l = none := by
    cases hp : pCond "ifdef::".toList false l with
    | none => rfl
    | some x => rw [hp] at e1; cases e1
  rw [e1]
  rcases ho with ⟨hn, rfl⟩ | ⟨e2, ho⟩
  · cases hp : pCond "ifndef::".toList false l with
    | none => rw [hp] at hn; exact absurd rfl hn
    | some x => exact ⟨rfl, fun _ => ⟨"ifndef::", by decide, pCond_start hp⟩⟩
  have e2 : pCond "ifndef::".toList false l = none := by
    cases hp : pCond "ifndef::".toList false l with
    | none => rfl
    | some x => rw [hp] at e2; cases e2
  rw [e2]
  rcases ho with ⟨hn, ho⟩ | ⟨e3, rfl⟩
  · have hnend : pCond "endif::".toList true l = none := by
      cases hp : pCond "endif::".toList true l with
      | none => rfl
      | some x =>
        obtain ⟨t, rfl⟩ := pCond_start hp
        obtain ⟨u, hu⟩ := ho.2 hn
        cases hu
    refine ⟨?_, fun h => ⟨"ifeval::", by decide, ho.2 h⟩⟩
    rw [ho.1, hnend]
    cases pIfeval (alnum S) l <;> rfl
  · have e3 : pIfeval (alnum S) l = none := by
      cases hp : pIfeval (alnum S) l with
      | none => rfl
      | some x => have := e3.1; rw [hp] at this; cases this
    rw [e3]
    refine ⟨?_, fun h => ?_⟩
    · cases pCond "endif::".toList true l <;> rfl
    · cases hp : pCond "endif::".toList true l with
      | none => rw [hp] at h; exact absurd rfl h
      | some x => exact ⟨"endif::", by decide, pCond_start hp⟩

/-! ### Delimiters and sections -/

theorem yields_alnum_no {c : Char} {t : Text} (h : alnum S c = false) : Never grammar S (.rule R.Alphanum) (c :: t) := by
  refine yields_rule (yields_cls_no ?_)
  simp only [alnum] at h
  simp [Cls.has, h]

theorem leading_pos {c : Char} {k : Nat} {l : Text} (hk : 0 < k) {n : Nat} (h : pDelim c k l = some n) : ∃ t, l = c :: t := by
  unfold pDelim at h
  split at h
  · next hc =>
    cases l with
    | nil => simp at hc; omega
    | cons d t =>
      by_cases hd : d = c
      · exact ⟨t, by rw [hd]⟩
      · rw [List.takeWhile_cons_of_neg (by simpa using hd)] at hc; simp at hc; omega
  · cases h

theorem pDelim_leading {c : Char} {k : Nat} {l : Text} {n : Nat} (h : pDelim c k l = some n) : n = leading c l := by
  unfold pDelim at h
  split at h
  · cases h; rfl
  · cases h

/-- The delimiters, in the order of the grammar. -/
def delimOf (l : Text) : Option RawElem :=
  ((pDelim '/' 4 l).map (fun n => RawElem.delim "comment" n l)).or <| ((pDelim '=' 4 l).map (fun n => RawElem.delim "example" n l)).or <|
  (bif pCode l then some (RawElem.delim "fenced" 3 l) else none).or <| ((pDelim '`' 3 l).map (fun n => RawElem.delim "fenced" n l)).or <|
  ((pDelim '-' 4 l).map (fun n => RawElem.delim "listing" n l)).or <| ((pDelim '.' 4 l).map (fun n => RawElem.delim "listing" n l)).or <|
  ((pDelim '+' 4 l).map (fun n => RawElem.delim "pass" n l)).or <| ((pDelim '_' 4 l).map (fun n => RawElem.delim "quote" n l)).or
  ((pDelim '*' 4 l).map (fun n => RawElem.delim "sidebar" n l))

theorem out_delim (hS : RawCode S elem sects within) {se wb : Bool} {i a b : Nat} {c : Char} {k : Nat} {kind : String} (hc : c ≠ '\uFFFD') (he : isEol c = false)
    (hG : grammar i = .act a (.scope (.seq (.act b (.scope (.seq (.lit (List.replicate k c)) (.star (.lit [c])))))
      (.seq (.star (.rule R.Space)) (.rule R.EOL))))) (hx : (a, c, kind) ∈ delimActs) {l : Text} (hl : NoEol l) :
    Out S elem sects within se wb (.rule i) l (fun o => o = ((pDelim c k l).map (fun n => RawElem.delim kind n l)).map some) := by
  refine (out_fun hG (pDelim c k l) (fun n => .delim kind n l) (yields_pDelim hc he hG hl) ?_).mono ?_
  · intro s n hn
    rw [hS.delim _ hx, pDelim_leading hn]
  · rintro o rfl
    rw [Option.map_map]; rfl

theorem out_code (hS : RawCode S elem sects within) {se wb : Bool} {l : Text} (hl : NoEol l) :
    Out S elem sects within se wb (.rule R.MarkdownCodeDelimiter) l (fun o => o = (bif pCode l then some (RawElem.delim "fenced" 3 l) else none).map some) := by
  refine out_act (id := 124) rfl (yields_pCode hl) ?_ ?_ ?_
  · cases pCode l
    · exact Or.inl rfl
    · exact Or.inr rfl
  · intro h
    cases hc : pCode l with
    | false => rfl
    | true => rw [hc] at h; cases h
  · intro h s
    cases hc : pCode l with
    | false => rw [hc] at h; cases h
    | true => rw [hS.code]; rfl

theorem map_or {α β : Type} (f : α → β) (x y : Option α) : (x.map f).or (y.map f) = (x.or y).map f := by cases x <;> rfl

/-- The alternatives of `BlockDelimiter`. -/
theorem out_delims (hS : RawCode S elem sects within) {se wb : Bool} {l : Text} (hl : NoEol l) :
    Out S elem sects within se wb (.alt (.rule R.CommentBlockDelimiter) (.alt (.rule R.ExampleBlockDelimiter)
      (.alt (.rule R.MarkdownCodeDelimiter) (.alt (.rule R.FencedBlockDelimiter) (.alt (.rule R.ListingBlockDelimiter)
      (.alt (.rule R.LiteralBlockDelimiter) (.alt (.rule R.PassthroughBlockDelimiter) (.alt (.rule R.QuoteBlockDelimiter)
      (.rule R.SidebarBlockDelimiter))))))))) l (fun o => o = (delimOf l).map some) := by
  have q : ∀ i, i ≠ R.DelimitedBlockElements → quiet [50] (fun j => !(j == R.DelimitedBlockElements)) (.rule i) = true := by
    intro i hi; simpa [quiet] using hi
  refine (out_or hS (q _ (by decide)) (out_delim (kind := "comment") (a := 119) (b := 118) (c := '/') (k := 4) hS (by decide) (by decide) rfl (by decide) hl) <|
    out_or hS (q _ (by decide)) (out_delim (kind := "example") (a := 121) (b := 120) (c := '=') (k := 4) hS (by decide) (by decide) rfl (by decide) hl) <|
    out_or hS (q _ (by decide)) (out_code hS hl) <|
    out_or hS (q _ (by decide)) (out_delim (kind := "fenced") (a := 123) (b := 122) (c := '`') (k := 3) hS (by decide) (by decide) rfl (by decide) hl) <|
    out_or hS (q _ (by decide)) (out_delim (kind := "listing") (a := 127) (b := 126) (c := '-') (k := 4) hS (by decide) (by decide) rfl (by decide) hl) <|
    out_or hS (q _ (by decide)) (out_delim (kind := "listing") (a := 131) (b := 130) (c := '.') (k := 4) hS (by decide) (by decide) rfl (by decide) hl) <|
    out_or hS (q _ (by decide)) (out_delim (kind := "pass") (a := 133) (b := 132) (c := '+') (k := 4) hS (by decide) (by decide) rfl (by decide) hl) <|
    out_or hS (q _ (by decide)) (out_delim (kind := "quote") (a := 135) (b := 134) (c := '_') (k := 4) hS (by decide) (by decide) rfl (by decide) hl) <|
    out_delim (kind := "sidebar") (a := 137) (b := 136) (c := '*') (k := 4) hS (by decide) (by decide) rfl (by decide) hl).mono ?_
  rintro o rfl
  unfold delimOf
  simp only [map_or]

theorem pCode_start {l : Text} (h : pCode l = true) : ∃ t, l = '`' :: t := by
  unfold pCode at h
  cases hp : pLit "```".toList l with
  | none => rw [hp] at h; cases h
  | some t => exact ⟨_, pLit_some hp⟩

theorem delimOf_start {l : Text} {e : RawElem} (h : delimOf l = some e) : ∃ c t, l = c :: t ∧ c ∈ "/=`-.+_*".toList := by
  unfold delimOf at h
  have key : ∀ {c : Char} {k : Nat} {kind : String} {y : Option RawElem}, 0 < k → c ∈ "/=`-.+_*".toList →
      ((pDelim c k l).map (fun n => RawElem.delim kind n l)).or y = some e → (∃ c t, l = c :: t ∧ c ∈ "/=`-.+_*".toList) ∨ y = some e := by
    intro c k kind y hk hc h
    cases hp : pDelim c k l with
    | none => rw [hp] at h; exact Or.inr h
    | some n => obtain ⟨t, ht⟩ := leading_pos hk hp; exact Or.inl ⟨c, t, ht, hc⟩
  rcases key (by decide) (by decide) h with h | h; · exact h
  rcases key (by decide) (by decide) h with h | h; · exact h
  cases hc : pCode l with
  | true => obtain ⟨t, ht⟩ := pCode_start hc; exact ⟨_, t, ht, by decide⟩
  | false =>
  rw [hc] at h
  rcases key (by decide) (by decide) h with h | h; · exact h
  rcases key (by decide) (by decide) h with h | h; · exact h
  rcases key (by decide) (by decide) h with h | h; · exact h
  rcases key (by decide) (by decide) h with h | h; · exact h
  rcases key (by decide) (by decide) h with h | h; · exact h
  rw [← Option.or_none (o := ((pDelim '*' 4 l).map (fun n => RawElem.delim "sidebar" n l)))] at h
  rcases key (by decide) (by decide) h with h | h; · exact h
  cases h

theorem out_blockDelimiter (hS : RawCode S elem sects within) {se wb : Bool} {l : Text} (hl : NoEol l) :
    Out S elem sects within se wb (.rule R.BlockDelimiter) l (fun o => o = (delimOf l).map some) := by
  intro st s r hs hw h
  have h := eval_rule.mp h
  have body : ∀ r, Eval grammar S (.scope (.seq (.notP (.rule R.Alphanum)) (.alt (.rule R.CommentBlockDelimiter) (.alt (.rule R.ExampleBlockDelimiter)
      (.alt (.rule R.MarkdownCodeDelimiter) (.alt (.rule R.FencedBlockDelimiter) (.alt (.rule R.ListingBlockDelimiter)
      (.alt (.rule R.LiteralBlockDelimiter) (.alt (.rule R.PassthroughBlockDelimiter) (.alt (.rule R.QuoteBlockDelimiter)
      (.rule R.SidebarBlockDelimiter))))))))))) l s l r → result elem r = (delimOf l).map some ∧ (r.rest = none ∨ r.rest = some []) := by
    intro r h
    have seq : ∀ r, Eval grammar S (.seq (.notP (.rule R.Alphanum)) (.alt (.rule R.CommentBlockDelimiter) (.alt (.rule R.ExampleBlockDelimiter)
      (.alt (.rule R.MarkdownCodeDelimiter) (.alt (.rule R.FencedBlockDelimiter) (.alt (.rule R.ListingBlockDelimiter)
      (.alt (.rule R.LiteralBlockDelimiter) (.alt (.rule R.PassthroughBlockDelimiter) (.alt (.rule R.QuoteBlockDelimiter)
      (.rule R.SidebarBlockDelimiter)))))))))) l s l r → result elem r = (delimOf l).map some ∧ (r.rest = none ∨ r.rest = some []) := by
      intro r h
      rcases eval_seq.mp h with ⟨s1, h1, rfl⟩ | ⟨s1, u, h1, h2⟩
      · refine ⟨?_, Or.inl rfl⟩
        cases hd : delimOf l with
        | none => rfl
        | some e =>
          obtain ⟨c, t, rfl, hc⟩ := delimOf_start hd
          have : Yields grammar S (.notP (.rule R.Alphanum)) (c :: t) (some (c :: t)) := yields_notP (yields_alnum_no (hS.cls c (by revert hc; simp; tauto)))
          cases this _ _ _ h1
      · have k := store_kept hS (by decide +kernel) h1
        rcases eval_notP.mp h1 with ⟨s2, _, e⟩ | ⟨s2, v, _, e⟩
        · cases e
          exact out_delims hS hl _ _ _ (k.1.trans hs) (k.2.trans hw) h2
        · cases e
    rcases eval_scope.mp h with ⟨s1, h1, rfl⟩ | ⟨s1, u, h1, rfl⟩
    · exact ⟨(seq _ h1).1, Or.inl rfl⟩
    · exact seq _ h1
  rcases eval_act.mp h with ⟨s1, h1, rfl⟩ | ⟨s1, u, h1, rfl⟩
  · exact body _ h1
  · have := body _ h1
    refine ⟨?_, this.2⟩
    show some (elem (S.act 117 s1 l u)) = _
    rw [(hS.passes _ _ _).2]
    exact this.1

/-- A section, in a file that is included, outside blocks. -/
def sectOf (se wb : Bool) (l : Text) : Option RawElem :=
  bif se && !wb then (pSection l).map (fun n : Nat => RawElem.sect (n : Int) l) else none

theorem yields_equals (l : Text) : Yields grammar S (.plus (.lit ['='])) l (if leading '=' l = 0 then none else some (l.dropWhile (· == '='))) := by
  have hk := yields_pLit (S := S) (l := ['=']) (by decide) l
  rw [pLit_singleton] at hk
  cases l with
  | nil => exact never_plus hk
  | cons c l =>
    dsimp only at hk
    by_cases hc : '=' = c
    · subst hc
      have e : leading '=' ('=' :: l) = leading '=' l + 1 := by unfold leading; rw [List.takeWhile_cons_of_pos (by simp)]; rfl
      rw [if_pos rfl] at hk
      rw [e, if_neg (by omega), List.dropWhile_cons_of_pos (by simp)]
      exact yields_plus_step hk (yields_star_lit (by decide) l)
    · have e : leading '=' (c :: l) = 0 := by unfold leading; rw [List.takeWhile_cons_of_neg (by simpa using Ne.symm hc)]; rfl
      rw [if_neg hc] at hk
      rw [e, if_pos rfl]
      exact never_plus hk

theorem yields_title {t : Text} (ht : NoEol t) : Yields grammar S (.seq (.rule R.Spaces) (.seq (.rule R.ManyChars) (.rule R.EOF))) t (bif pTitle t then some [] else none) := by
  have hsp : Yields grammar S (.rule R.Spaces) t (if t.takeWhile isBlank = [] then none else some (t.dropWhile isBlank)) :=
    yields_rule (yields_act (yields_plus_cls isBlank has_blank t))
  have hch : ∀ u, NoEol u → Yields grammar S (.seq (.rule R.ManyChars) (.rule R.EOF)) u (if u = [] then none else some []) := by
    intro u hu
    have h : Yields grammar S (.rule R.ManyChars) u _ := yields_rule (yields_act (yields_plus_cls (fun c => !isEol c) has_line u))
    have h1 : u.takeWhile (fun c => !isEol c) = u := hu.firstLine
    have h2 : u.dropWhile (fun c => !isEol c) = [] := by
      have := List.takeWhile_append_dropWhile (p := fun c => !isEol c) (l := u)
      rw [h1] at this
      simpa using this
    rw [h1, h2] at h
    by_cases h0 : u = []
    · rw [if_pos h0] at h ⊢; exact never_seq h
    · rw [if_neg h0] at h ⊢; exact yields_seq h yields_EOF_nil
  have hd := ht.suffix (List.dropWhile_suffix isBlank)
  have hall : (t.dropWhile isBlank).all (fun c => !(c == '\r' || c == '\n')) = true := by
    rw [List.all_eq_true]
    intro c hc
    have := hd c hc
    rw [Bool.or_comm]
    simp only [isEol] at this
    rw [this]; rfl
  unfold pTitle
  rw [isSpace_isBlank, hall, Bool.and_true]
  by_cases h0 : t.takeWhile isBlank = []
  · rw [if_pos h0] at hsp
    rw [decide_eq_false (not_not_intro h0)]
    exact never_seq hsp
  · rw [if_neg h0] at hsp
    rw [decide_eq_true h0, Bool.true_and]
    refine yields_seq hsp ?_
    have := hch _ hd
    by_cases h1 : t.dropWhile isBlank = []
    · rw [if_pos h1] at this
      rw [decide_eq_false (not_not_intro h1)]
      exact this
    · rw [if_neg h1] at this
      rw [decide_eq_true h1]
      exact this

theorem out_section (hS : RawCode S elem sects within) {se wb : Bool} {l : Text} (hl : NoEol l) :
    Out S elem sects within se wb (.rule R.RawSection) l (fun o => o = (sectOf se wb l).map some) := by
  intro st s r hs hw h
  have h := eval_rule.mp h
  have body : ∀ r, Eval grammar S (.scope (.seq (.pred 1) (.seq (.pred 2) (.seq (.act 3 (.plus (.lit ['=']))) (.seq (.pred 4) (.seq
      (.rule R.Spaces) (.seq (.rule R.ManyChars) (.rule R.EOF)))))))) l s l r → r.rest = all (sectOf se wb l) := by
    intro r h
    have seq : ∀ r, Eval grammar S (.seq (.pred 1) (.seq (.pred 2) (.seq (.act 3 (.plus (.lit ['=']))) (.seq (.pred 4) (.seq
      (.rule R.Spaces) (.seq (.rule R.ManyChars) (.rule R.EOF))))))) l s l r → r.rest = all (sectOf se wb l) := by
      intro r h
      have p1 : ∀ s t r, Eval grammar S (.pred 1) l s t r → r = if sects s then .ok (S.pred 1 s l t).2 t else .fail (S.pred 1 s l t).2 := by
        intro s t r h
        rw [eval_pred.mp h]
        have := hS.enabled s l t
        rcases hp : S.pred 1 s l t with ⟨x, s'⟩
        rw [hp] at this
        subst this
        cases sects s <;> rfl
      have p2 : ∀ s t r, Eval grammar S (.pred 2) l s t r → r = if within s then .fail (S.pred 2 s l t).2 else .ok (S.pred 2 s l t).2 t := by
        intro s t r h
        rw [eval_pred.mp h]
        have := hS.outside s l t
        rcases hp : S.pred 2 s l t with ⟨x, s'⟩
        rw [hp] at this
        subst this
        cases within s <;> rfl
      have p4 : ∀ s p t r, l = p ++ t → Eval grammar S (.pred 4) l s t r → r.rest = if leading '=' p ≤ 6 then some t else none := by
        intro s p t r hpt h
        rw [eval_pred.mp h]
        have := hS.level s p t
        rw [← hpt] at this
        rcases hp : S.pred 4 s l t with ⟨x, s'⟩
        rw [hp] at this
        dsimp only at this
        subst this
        by_cases hle : leading '=' p ≤ 6
        · rw [if_pos hle, decide_eq_true hle]; rfl
        · rw [if_neg hle, decide_eq_false hle]; rfl
      rcases eval_seq.mp h with ⟨s1, h1, rfl⟩ | ⟨s1, u, h1, h2⟩
      · have := p1 _ _ _ h1
        cases hse : sects s with
        | true => rw [hse] at this; cases this
        | false => rw [hs] at hse; subst hse; rfl
      · have := p1 _ _ _ h1
        cases hse : sects s with
        | false => rw [hse] at this; cases this
        | true =>
          rw [hse] at this
          cases this
          have hse' : se = true := by rw [← hs, hse]
          have hw1 : within (S.pred 1 s l l).2 = wb := (hS.pred_keeps _ _ _ _).2.trans hw
          rcases eval_seq.mp h2 with ⟨s2, h3, rfl⟩ | ⟨s2, u, h3, h4⟩
          · have := p2 _ _ _ h3
            rw [hw1] at this
            cases wb with
            | false => cases this
            | true => subst hse'; rfl
          · have := p2 _ _ _ h3
            rw [hw1] at this
            cases wb with
            | true => cases this
            | false =>
              cases this
              subst hse'
              show r.rest = all ((pSection l).map (fun n : Nat => RawElem.sect (n : Int) l))
              have hall : ∀ f : Nat → RawElem, all ((pSection l).map f) = all (pSection l) := by
                intro f; unfold all; rw [Option.map_map]; rfl
              rw [hall]
              unfold pSection
              have ht := yields_title (S := S) (hl.suffix (List.dropWhile_suffix (· == '=')))
              have hp := yields_act (id := 3) (yields_equals (S := S) l)
              have hlead : (l.takeWhile (· == '=')).length = leading '=' l := rfl
              dsimp only
              rw [hlead]
              rcases eval_seq.mp h4 with ⟨s3, h5, rfl⟩ | ⟨s3, u, h5, h6⟩
              · have := hp _ _ _ h5
                by_cases h0 : leading '=' l = 0
                · rw [if_neg (by omega)]; rfl
                · rw [if_neg h0] at this; cases this
              · have := hp _ _ _ h5
                by_cases h0 : leading '=' l = 0
                · rw [if_pos h0] at this; cases this
                · rw [if_neg h0] at this
                  cases this
                  have hsplit : l = l.takeWhile (· == '=') ++ l.dropWhile (· == '=') := (List.takeWhile_append_dropWhile).symm
                  have hl2 : leading '=' (l.takeWhile (· == '=')) = leading '=' l := by
                    unfold leading
                    have : (l.takeWhile (· == '=')).takeWhile (· == '=') = l.takeWhile (· == '=') := by
                      have := List.takeWhile_append_of_pos (p := (· == '=')) (l₁ := l.takeWhile (· == '=')) (l₂ := [])
                        (fun x hx => List.all_eq_true.mp List.all_takeWhile x hx)
                      simpa using this
                    rw [this]
                  rcases eval_seq.mp h6 with ⟨s4, h7, rfl⟩ | ⟨s4, v, h7, h8⟩
                  · have := p4 _ _ _ _ hsplit h7
                    rw [hl2] at this
                    by_cases h9 : leading '=' l ≤ 6
                    · rw [if_pos h9] at this; cases this
                    · rw [if_neg (by omega)]; rfl
                  · have := p4 _ _ _ _ hsplit h7
                    rw [hl2] at this
                    by_cases h9 : leading '=' l ≤ 6
                    · rw [if_pos h9] at this
                      cases this
                      rw [ht _ _ _ h8]
                      cases hT : pTitle (l.dropWhile (· == '=')) with
                      | true => rw [if_pos ⟨by omega, h9, rfl⟩]; rfl
                      | false => rw [if_neg (fun h => nomatch h.2.2)]; rfl
                    · rw [if_neg h9] at this; cases this
    rcases eval_scope.mp h with ⟨s1, h1, rfl⟩ | ⟨s1, u, h1, rfl⟩
    · exact (seq _ h1 : none = _)
    · exact seq _ h1
  rcases eval_act.mp h with ⟨s1, h1, rfl⟩ | ⟨s1, u, h1, rfl⟩
  · have := body _ h1
    rw [all_none this.symm]
    exact ⟨rfl, Or.inl rfl⟩
  · have hb := body _ h1
    have hb : some u = all (sectOf se wb l) := hb
    rcases all_cases (sectOf se wb l) with h2 | h2
    · rw [h2] at hb; cases hb
    · rw [h2] at hb
      cases hb
      refine ⟨?_, Or.inr rfl⟩
      obtain ⟨x, hx⟩ := all_some h2
      show some (elem (S.act 5 s1 l [])) = _
      rw [hS.sect, hx]
      unfold sectOf at hx
      cases hc : (se && !wb) with
      | false => rw [hc] at hx; cases hx
      | true =>
        rw [hc] at hx
        have hx : (pSection l).map (fun n : Nat => RawElem.sect (n : Int) l) = some x := hx
        unfold pSection at hx
        dsimp only at hx
        split at hx
        · cases hx; rfl
        · cases hx

/-! ### Declarations and inclusions -/

/-- The form of a declaration: `:name:`, then nothing or a space and something. -/
def Declares (al : Class) (n : Text) (l : Text) : Prop :=
  ∃ rest, NameText al n ∧ l = ':' :: (n ++ ':' :: rest) ∧ (rest = [] ∨ ∃ c t, rest = c :: t ∧ isBlank c = true)

/-- The form of an inclusion. -/
def Includes (l : Text) : Prop := "include::".toList <+: l

theorem last {a b : Exp} {st : Text} {s s' : σ} {t u : Text} (h : Eval grammar S (.seq a b) st s t (.ok s' u)) :
    ∃ s1 v, Eval grammar S a st s t (.ok s1 v) ∧ Eval grammar S b st s1 v (.ok s' u) := by
  rcases eval_seq.mp h with ⟨_, _, e⟩ | ⟨s1, v, h1, h⟩
  · cases e
  · exact ⟨s1, v, h1, h⟩

theorem EOL_line {l v u : Text} (hl : NoEol l) (hv : v <:+ l) {st : Text} {s s' : σ} (h : Eval grammar S (.rule R.EOL) st s v (.ok s' u)) : v = [] ∧ u = [] := by
  have := yields_EOL _ _ _ h
  exact (hl.suffix hv).eol this.symm

theorem out_declaration (hS : RawCode S elem sects within) {se wb : Bool} {l : Text} (hl : NoEol l) :
    Out S elem sects within se wb (.rule R.AttributeDeclaration) l (fun o => o = none ∨ ∃ n v, Declares (alnum S) n l ∧ o = some (some (.decl (String.ofList n) v l))) := by
  intro st s r hs hw h
  have h := eval_rule.mp h
  rcases eval_act.mp h with ⟨s1, h1, rfl⟩ | ⟨s1, u, h1, rfl⟩
  · exact ⟨Or.inl rfl, Or.inl rfl⟩
  rcases eval_scope.mp h1 with ⟨s2, _, e⟩ | ⟨s2, v, h2, e⟩
  · cases e
  cases e
  obtain ⟨s3, t1, k1, h3⟩ := last h2
  obtain ⟨s4, t2, k2, h4⟩ := last h3
  obtain ⟨s5, t3, k3, h5⟩ := last h4
  obtain ⟨s6, t4, k4, h6⟩ := last h5
  have e1 := yields_pLit (S := S) (l := [':']) (by decide) l _ _ _ k1
  have e2 := yields_pName (S := S) t1 _ _ _ k2
  have e3 := yields_pLit (S := S) (l := [':']) (by decide) t2 _ _ _ k3
  have e1 : pLit [':'] l = some t1 := e1.symm
  have e3 : pLit [':'] t2 = some t3 := e3.symm
  obtain ⟨n, e2⟩ : ∃ n, pName (alnum S) t1 = some (n, t2) := by
    cases hp : pName (alnum S) t1 with
    | none => rw [hp] at e2; cases e2
    | some x => rw [hp] at e2; cases e2; exact ⟨x.1, rfl⟩
  have hn := pName_some e2
  have hl3 : l = ':' :: (n ++ ':' :: t3) := by rw [pLit_some e1, hn.1, pLit_some e3]; rfl
  have s3' : t3 <:+ l := ⟨':' :: (n ++ [':']), by rw [hl3]; simp⟩
  have hend := EOL_line hl (k4.suffix.trans s3') h6
  obtain ⟨rfl, rfl⟩ := hend
  have hform : t3 = [] ∨ ∃ c t, t3 = c :: t ∧ isBlank c = true := by
    cases ht3 : t3 with
    | nil => exact Or.inl rfl
    | cons c t =>
      right
      refine ⟨c, t, rfl, ?_⟩
      cases hc : isBlank c with
      | true => rfl
      | false =>
        rw [ht3] at k4
        have hsp : Never grammar S (.rule R.Spaces) (c :: t) := yields_rule (yields_act (never_plus (yields_cls_no (by rw [has_blank, hc]))))
        have := yields_opt_none (yields_act (id := 52) (yields_scope (never_seq (b := .rule R.AttributeDeclarationValue) hsp))) _ _ _ k4
        cases this
  obtain ⟨v, hv⟩ := hS.decl s1 l
  refine ⟨Or.inr ⟨n, v, ⟨t3, hn.2, hl3, hform⟩, ?_⟩, Or.inr rfl⟩
  show some (elem (S.act 53 s1 l [])) = _
  have e1' : pLit ":".toList l = some t1 := e1
  rw [hv, e1']
  show some ((pName (alnum S) t1).map _) = _
  rw [e2]; rfl

theorem out_inclusion (hS : RawCode S elem sects within) {se wb : Bool} {l : Text} (hl : NoEol l) :
    Out S elem sects within se wb (.rule R.FileInclusion) l (fun o => o = none ∨ ∃ i, Includes l ∧ o = some (some (.incl i))) := by
  intro st s r hs hw h
  have h := eval_rule.mp h
  rcases eval_act.mp h with ⟨s1, h1, rfl⟩ | ⟨s1, u, h1, rfl⟩
  · exact ⟨Or.inl rfl, Or.inl rfl⟩
  rcases eval_scope.mp h1 with ⟨s2, _, e⟩ | ⟨s2, v, h2, e⟩
  · cases e
  cases e
  obtain ⟨s3, t1, k1, h3⟩ := last h2
  obtain ⟨s4, t2, k2, h4⟩ := last h3
  obtain ⟨rfl, rfl⟩ := EOL_line hl (k2.suffix.trans k1.suffix) h4
  have hp : Includes l := by
    cases hp : pLit "include::".toList l with
    | some t => exact ⟨t, (pLit_some hp).symm⟩
    | none =>
      have hk := yields_pLit (S := S) (l := "include::".toList) (by decide) l
      rw [hp] at hk
      cases yields_act (id := 25) (yields_scope (never_seq (b := .seq (.rule R.FileLocation) (.rule R.InlineAttributes)) hk)) _ _ _ k1
  obtain ⟨i, hi⟩ := hS.incl s1 l
  refine ⟨Or.inr ⟨i, hp, ?_⟩, Or.inr rfl⟩
  show some (elem (S.act 26 s1 l [])) = _
  rw [hi]

theorem out_reset (hS : RawCode S elem sects within) {se wb : Bool} {l : Text} (hl : NoEol l) :
    Out S elem sects within se wb (.rule R.AttributeReset) l (fun o => o = ((pReset (alnum S) l).map (fun n => RawElem.reset (String.ofList n) l)).map some) := by
  intro st s r hs hw h
  have hy := yields_reset hl _ _ _ h
  have h := eval_rule.mp h
  cases hp : pReset (alnum S) l with
  | none =>
    rw [hp] at hy
    cases r with
    | fail s' => exact ⟨rfl, Or.inl rfl⟩
    | ok s' u => cases hy
  | some n =>
    rw [hp] at hy
    have fin : ∀ id ∈ [60, 61], ∀ e st s r, r.rest = some [] → Eval grammar S (.act id e) st s l r → result elem r = some (some (.reset (String.ofList n) l)) := by
      intro id hid e st s r hr h
      rcases eval_act.mp h with ⟨s1, h1, rfl⟩ | ⟨s1, u, h1, rfl⟩
      · cases hr
      · cases hr
        show some (elem (S.act id s1 l [])) = _
        rw [hS.reset id hid, hp]; rfl
    refine ⟨?_, Or.inr hy⟩
    rcases eval_alt.mp h with ⟨s1, _, h2⟩ | ⟨s1, u, h1, rfl⟩
    · exact fin 61 (by decide) _ _ _ _ hy h2
    · exact fin 60 (by decide) _ _ _ _ hy h1

/-! ### All lines -/

/-- What a line that neither declares an attribute nor includes a file is read as. -/
def lineOf (S : Sem σ) (se wb : Bool) (l : Text) : Option RawElem :=
  ((pReset (alnum S) l).map (fun n => RawElem.reset (String.ofList n) l)).or <| (condOf S l).or <| (delimOf l).or (sectOf se wb l)

/-- The alternatives of `DocumentRawLine`, without the first one. -/
theorem out_tail (hS : RawCode S elem sects within) {se wb : Bool} {l : Text} (hl : NoEol l) :
    Out S elem sects within se wb (.alt (.rule R.AttributeReset) (.alt (.rule R.FileInclusion)
      (.alt (.rule R.ConditionalInclusion) (.alt (.rule R.BlockDelimiter) (.rule R.RawSection))))) l
      (fun o => (∃ i, Includes l ∧ o = some (some (.incl i))) ∨ o.join = lineOf S se wb l) := by
  have q : ∀ i, i ≠ R.DelimitedBlockElements → quiet [50] (fun j => !(j == R.DelimitedBlockElements)) (.rule i) = true := by
    intro i hi; simpa [quiet] using hi
  refine (out_alt hS (q _ (by decide)) (out_reset hS hl) <| out_alt hS (q _ (by decide)) (out_inclusion hS hl) <|
    out_alt hS (q _ (by decide)) (out_cond hS) <| out_or hS (q _ (by decide)) (out_blockDelimiter hS hl) (out_section hS hl)).mono ?_
  intro o ho
  rcases ho with ⟨hn, rfl⟩ | ⟨h0, ho⟩
  · right
    unfold lineOf
    cases hp : pReset (alnum S) l with
    | none => rw [hp] at hn; exact absurd rfl hn
    | some n => rfl
  have hreset : (pReset (alnum S) l).map (fun n => RawElem.reset (String.ofList n) l) = none := by
    cases hp : pReset (alnum S) l with
    | none => rfl
    | some n => rw [hp] at h0; cases h0
  rcases ho with ⟨hn, h | h⟩ | ⟨_, ho⟩
  · exact absurd h hn
  · exact Or.inl h
  right
  unfold lineOf
  rw [hreset, Option.none_or]
  rcases ho with ⟨hn, ho⟩ | ⟨h1, rfl⟩
  · rw [ho.1]
    cases hc : condOf S l with
    | some e => rfl
    | none =>
      rw [Option.none_or]
      -- neither a delimiter nor a section
      obtain ⟨k, hk, t, rfl⟩ := ho.2 hn
      have h1 : delimOf (k.toList ++ t) = none := by
        cases hd : delimOf (k.toList ++ t) with
        | none => rfl
        | some e =>
          obtain ⟨c, u, hu, hc⟩ := delimOf_start hd
          simp only [List.mem_cons, List.not_mem_nil, or_false] at hk
          rcases hk with rfl | rfl | rfl | rfl <;> cases hu <;> exact absurd hc (by decide)
      have h2 : pSection (k.toList ++ t) = none := by
        simp only [List.mem_cons, List.not_mem_nil, or_false] at hk
        rcases hk with rfl | rfl | rfl | rfl <;> rfl
      rw [h1, Option.none_or]
      unfold sectOf
      rw [h2]
      cases (se && !wb) <;> rfl
  · have hc : condOf S l = none := h1.1.symm
    rw [hc, Option.none_or, map_or]
    cases (delimOf l).or (sectOf se wb l) <;> rfl

/-- What preprocessing reads in a line, from the results of the rule for declarations. -/
theorem raw_split (hS : RawCode S elem sects within) {st : Text} {s : σ} {l : Text} {r : Res σ} (hl : NoEol l) {Q : Option (Option RawElem) → Prop}
    (hQ : Out S elem sects within (sects s) (within s) (.rule R.AttributeDeclaration) l Q)
    (h : Eval grammar S (.rule R.DocumentRawLine) st s l r) :
    (∃ x, Q (some x) ∧ read elem r = x) ∨ (Q none ∧ ((∃ i, Includes l ∧ read elem r = some (.incl i)) ∨ read elem r = lineOf S (sects s) (within s) l)) := by
  have h := eval_rule.mp h
  have q : quiet [50] (fun j => !(j == R.DelimitedBlockElements)) (.rule R.AttributeDeclaration) = true := by decide
  have alts := out_alt hS q hQ (out_tail hS (se := sects s) (wb := within s) hl)
  have body : ∀ r, Eval grammar S (.scope (.seq (.alt (.rule R.AttributeDeclaration) (.alt (.rule R.AttributeReset) (.alt (.rule R.FileInclusion)
    (.alt (.rule R.ConditionalInclusion) (.alt (.rule R.BlockDelimiter) (.rule R.RawSection)))))) (.rule R.EOF))) l s l r →
    (∃ x, Q (some x) ∧ read elem r = x) ∨ (Q none ∧ ((∃ i, Includes l ∧ read elem r = some (.incl i)) ∨ read elem r = lineOf S (sects s) (within s) l)) := by
    intro r h
    have seq : ∀ r, Eval grammar S (.seq (.alt (.rule R.AttributeDeclaration) (.alt (.rule R.AttributeReset) (.alt (.rule R.FileInclusion)
      (.alt (.rule R.ConditionalInclusion) (.alt (.rule R.BlockDelimiter) (.rule R.RawSection)))))) (.rule R.EOF)) l s l r →
      (∃ x, Q (some x) ∧ read elem r = x) ∨ (Q none ∧ ((∃ i, Includes l ∧ read elem r = some (.incl i)) ∨ read elem r = lineOf S (sects s) (within s) l)) := by
      intro r h
      rcases eval_seq.mp h with ⟨s1, h1, rfl⟩ | ⟨s1, u, h1, h2⟩
      · rcases (alts _ _ _ rfl rfl h1).1 with ⟨hn, _⟩ | ⟨hq, ⟨i, _, e⟩ | h⟩
        · exact absurd rfl hn
        · cases e
        · exact Or.inr ⟨hq, Or.inr h⟩
      · have hout := alts _ _ _ rfl rfl h1
        have hu : u = [] := by
          rcases hout.2 with e | e <;> cases e; rfl
        subst hu
        have e : read elem r = elem s1 := by
          have hy := yields_EOF_nil _ _ _ h2
          have h2 := eval_rule.mp h2
          rcases eval_notP.mp h2 with ⟨s2, h3, rfl⟩ | ⟨s2, v, h3, rfl⟩
          · exact hS.back _ _
          · cases hy
        rw [e]
        rcases hout.1 with ⟨hn, hq⟩ | ⟨hq, ⟨i, hi, e⟩ | h⟩
        · exact Or.inl ⟨_, hq, rfl⟩
        · exact Or.inr ⟨hq, Or.inl ⟨i, hi, Option.some.inj e⟩⟩
        · exact Or.inr ⟨hq, Or.inr h⟩
    rcases eval_scope.mp h with ⟨s1, h1, rfl⟩ | ⟨s1, u, h1, rfl⟩
    · exact (seq _ h1 : _)
    · exact seq _ h1
  rcases eval_act.mp h with ⟨s1, h1, rfl⟩ | ⟨s1, u, h1, rfl⟩
  · exact body _ h1
  · have := body _ h1
    have e : read elem (Res.ok (S.act 0 s1 l u) u) = read elem (Res.ok s1 u) := (hS.passes _ _ _).1
    rw [e]
    exact this

/-- **C50.** What preprocessing reads in a line: the declaration of an attribute, the inclusion of a file, or what `lineOf` says. -/
theorem raw_line (hS : RawCode S elem sects within) {st : Text} {s : σ} {l : Text} {r : Res σ} (hl : NoEol l)
    (h : Eval grammar S (.rule R.DocumentRawLine) st s l r) :
    (∃ n v, Declares (alnum S) n l ∧ read elem r = some (.decl (String.ofList n) v l)) ∨ (∃ i, Includes l ∧ read elem r = some (.incl i)) ∨
      read elem r = lineOf S (sects s) (within s) l := by
  rcases raw_split hS hl (out_declaration hS hl) h with ⟨x, e | ⟨n, v, hd, e⟩, hx⟩ | ⟨_, h⟩
  · cases e
  · cases e; exact Or.inl ⟨n, v, hd, hx⟩
  · exact Or.inr h

end
end C50
end Verif
