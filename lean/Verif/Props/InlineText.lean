import Verif.Spec.Inlined
import Verif.Props.PlainText
import Verif.Proofs.Holds
import Verif.Proofs.Begins

/-!
# C65 — Inline markup: text between marks
-/
namespace Verif
namespace C65
open Peg Grammar Actions PlainText Inlined
open Walk (Any)
open Subs (Sub)
open C58 (AtMost Piece span_append pred_off dead_rule plain_suffix atMost_scope atMost_pred atMost_not atMost_char atMost_cls atMost_alt atMost_of_yields
  yields_plus_class never_plus_class split_while mem_takeWhile gives_alt_sure)

variable {σ : Type} {S : Sem σ} {A : Peg.Code σ} {E : List Sub} {t w next : Text} {c : Char}

/-- The substitutions that have nothing to do here. -/
def others : List Sub := [.passthroughs, .attributes, .specialchars, .postReplacements]

theorem quiet_suffix {u : Text} (h : Quiet t) (hu : u <:+ t) : Quiet u :=
  ⟨plain_suffix h.1 hu, fun m hm hn hi => h.2 m hm hn (hi.trans hu.isInfix)⟩

/-- The code of the grammar, with substitutions `E` among which are quotes, replacements, special characters and macros, but not callouts; `f`: the tracked byte. -/
structure Inl (S : Sem σ) (A : Peg.Code σ) (E : List Sub) (f : σ → Option Char) : Prop where
  progress : C45.ChecksProgress S
  obeys : Obeys A
  enabled : Enabled S E
  quotes : Sub.quotes ∈ E
  replacements : Sub.replacements ∈ E
  specialchars : Sub.specialchars ∈ E
  macros : Sub.macros ∈ E
  callouts : Sub.callouts ∉ E
  tracks : Tracks S f
  /-- `c.isSubstitutionDisabled(Quotes)` (parser_ext.go:278-292) -/
  marksOff : ∀ s st t, (S.pred 442 s st t).1 = false
  ascii : ∀ c, c.toNat < 128 → S.letter c = c.isAlpha ∧ S.number c = c.isDigit

theorem Inl.classes {f : σ → Option Char} (h : Inl S A E f) : C58.Classes S := by
  intro c hc
  simp only [isSpecial, Bool.or_eq_true, beq_iff_eq] at hc
  rcases hc with (rfl | rfl) | rfl <;> exact h.ascii _ (by decide)

variable {f : σ → Option Char}

theorem Inl.others (h : Inl S A E f) {s : Sub} (hs : s ∈ E) (h1 : s ≠ .quotes) (h2 : s ≠ .replacements) (h3 : s ≠ .macros) : s ∈ C65.others := by
  cases s <;> first | exact absurd rfl h1 | exact absurd rfl h2 | exact absurd rfl h3 | exact absurd hs h.callouts | decide

/-! ### Rules that cannot match -/

theorem never_AttributeReference (h : Inl S A E f) (ht : Quiet t) : Never grammar S (.rule R.AttributeReference) t := by
  by_cases hs : Sub.attributes ∈ E
  · exact dead_rule h.progress (h.others hs (by decide) (by decide) (by decide)) [R.AttributeReference, R.AttributeReferenceValue, R.CounterReference,
      R.CounterSubstitution1, R.CounterSubstitution2] [] (fun _ h => nomatch h) (by decide +kernel) (by decide) ht.1
  · exact yields_rule (yields_act (yields_scope (never_seq (pred_off h.enabled (by decide) hs))))

theorem never_InlinePassthrough (h : Inl S A E f) (ht : Quiet t) : Never grammar S (.rule R.InlinePassthrough) t := by
  by_cases hs : Sub.passthroughs ∈ E
  · exact dead_rule h.progress (h.others hs (by decide) (by decide) (by decide)) [R.SinglePlusPassthroughPrefix, R.SinglePlusPassthrough, R.TriplePlusPassthroughPrefix,
      R.TriplePlusPassthrough, R.PassthroughMacro, R.InlinePassthrough] [] (fun _ h => nomatch h) (by decide +kernel) (by decide) ht.1
  · exact yields_rule (yields_act (yields_scope (never_seq (pred_off h.enabled (by decide) hs))))

/-- What is in macros, except in references. -/
def macroMarks : List Text := (marks .macros).filterMap (fun m => if m = "<<" then none else some m.toList)

/-- Macros, except references. -/
theorem never_macro (h : Inl S A E f) (ht : Quiet t) {i : Nat} (hi : i ∈ [R.InlineIcon, R.InlineImage, R.Link, R.InlineFootnote, R.ExternalCrossReference, R.InlineUserMacro,
    R.InlineAnchor, R.ConcealedIndexTerm, R.IndexTerm, R.InlineButton, R.InlineMenu]) : Never grammar S (.rule i) t := by
  intro st x r ⟨n, hr⟩
  let T : List Nat := [R.InlineAttributes, R.LongHandAttributes, R.ExternalCrossReference, R.InlineAnchor, R.InlineButton, R.InlineMenu, R.IndexTerm, R.ConcealedIndexTerm, R.InlineImage,
      R.InlineIcon, R.InlineFootnote, R.Link, R.BareURL, R.RelativeLink, R.ExternalLink, R.EmailAddress, R.InlineUserMacro, R.LocationWithScheme, R.Scheme]
  refine dead_never h.progress macroMarks [] (fun j => T.contains j) [] (fun _ h => nomatch h) Quiet ?_ (fun t u h hu => quiet_suffix h hu) (fun _ h => nomatch h) ?_
    n (.rule i) st x t r ?_ ht hr
  · intro t ht g hg
    obtain ⟨m, hm, he⟩ := List.mem_filterMap.mp hg
    by_cases hn : m = "<<"
    · rw [if_pos hn] at he; cases he
    · rw [if_neg hn] at he; cases he
      exact ht.2 m hm hn
  · intro j hj
    have : T.all (fun i => dead macroMarks [] (fun j => T.contains j) (grammar i)) = true := by decide +kernel
    exact .inr (List.all_eq_true.mp this j (by simpa using hj))
  · have : ∀ i ∈ [R.InlineIcon, R.InlineImage, R.Link, R.InlineFootnote, R.ExternalCrossReference, R.InlineUserMacro, R.InlineAnchor, R.ConcealedIndexTerm, R.IndexTerm, R.InlineButton,
      R.InlineMenu], dead macroMarks [] (fun j => T.contains j) (.rule i) = true := by decide +kernel
    exact this i hi

theorem never_reference (ht : ¬ ['<', '<'] <+: t) : Never grammar S (.rule R.InternalCrossReference) t :=
  begins_never (F := [['<', '<']]) (fun m hm => by rw [List.mem_singleton.mp hm]; exact ht) 40 (.rule R.InternalCrossReference) (by decide +kernel)

/-- After a check, whatever its answer. -/
theorem never_checked {id : Nat} {e : Exp} (h : Never grammar S e t) : Never grammar S (.seq (.pred id) e) t := by
  intro st s r hr
  rcases eval_seq.mp hr with ⟨s1, h1, rfl⟩ | ⟨s1, v, h1, h2⟩
  · rfl
  · have h1 := eval_pred.mp h1
    unfold predRes at h1
    split at h1
    · cases h1; exact h _ _ _ h2
    · cases h1

theorem never_InlineMacro (h : Inl S A E f) (ht : Quiet t) (hr : ¬ ['<', '<'] <+: t) : Never grammar S (.rule R.InlineMacro) t := by
  by_cases hs : Sub.macros ∈ E
  · refine yields_rule (yields_act (yields_scope (never_checked ?_)))
    refine yields_alt_right (never_macro h ht (by decide)) (yields_alt_right (never_macro h ht (by decide)) (yields_alt_right (never_macro h ht (by decide))
      (yields_alt_right (never_InlinePassthrough h ht) (yields_alt_right (never_macro h ht (by decide)) (yields_alt_right ?_ (yields_alt_right (never_macro h ht (by decide))
      (yields_alt_right (never_macro h ht (by decide)) (yields_alt_right (never_macro h ht (by decide)) (yields_alt_right (never_macro h ht (by decide))
      (yields_alt_right (never_macro h ht (by decide)) (never_macro h ht (by decide))))))))))))
    exact yields_rule (yields_alt_right (never_reference hr) (never_macro h ht (by decide)))
  · exact yields_rule (yields_act (yields_scope (never_seq (pred_off h.enabled (by decide) hs))))

theorem never_LineBreak (h : Inl S A E f) (ht : Quiet t) : Never grammar S (.rule R.LineBreak) t := by
  by_cases hs : Sub.postReplacements ∈ E
  · exact dead_rule h.progress (h.others hs (by decide) (by decide) (by decide)) [R.LineBreak] [] (fun _ h => nomatch h) (by decide +kernel) (by decide) ht.1
  · exact yields_rule (yields_act (yields_scope (never_seq (pred_off h.enabled (by decide) hs))))

theorem never_Callout (h : Inl S A E f) : Never grammar S (.rule R.Callout) t :=
  yields_rule (yields_act (yields_scope (never_seq (pred_off h.enabled (by decide) h.callouts))))

/-- The marks of replacements, and the character that escapes them. -/
def replacing : List Text := ['\\'] :: ['`', '\''] :: (marks .replacements).map String.toList

theorem never_Replacement (hF : ∀ m ∈ replacing, ¬ m <+: t) : Never grammar S (.rule R.Replacement) t :=
  begins_never (F := replacing) hF 40 (.rule R.Replacement) (by decide +kernel)

theorem never_TypographicQuote (hF : ∀ m ∈ replacing, ¬ m <+: t) : Never grammar S (.rule R.TypographicQuote) t :=
  begins_never (F := replacing) hF 40 (.rule R.TypographicQuote) (by decide +kernel)

/-- The characters of marks, and those which escape them or begin attributes. -/
def quoting : List Char := ['*', '_', '`', '#', '^', '~', '[', '\\']

theorem never_QuotedText (hc : c ∉ quoting) : Never grammar S (.rule R.QuotedText) (c :: t) := by
  refine begins_never (F := quoting.map (fun x => [x])) ?_ 40 (.rule R.QuotedText) (by decide +kernel)
  intro m hm hp
  obtain ⟨x, hx, rfl⟩ := List.mem_map.mp hm
  obtain ⟨z, hz⟩ := hp
  have : x = c := (List.cons.inj hz).1
  exact hc (this ▸ hx)

theorem never_Quote (hc : c ∉ quoting) : Never grammar S (.rule R.Quote) (c :: t) := by
  refine begins_never (F := quoting.map (fun x => [x])) ?_ 40 (.rule R.Quote) (by decide +kernel)
  intro m hm hp
  obtain ⟨x, hx, rfl⟩ := List.mem_map.mp hm
  obtain ⟨z, hz⟩ := hp
  have : x = c := (List.cons.inj hz).1
  exact hc (this ▸ hx)

/-! ### The elements of a text -/

/-- A part of `w` was taken. -/
def TookIn (w next : Text) (o : Option (List Any × Text)) : Prop :=
  ∃ w1 w2 v, o = some ([v], w2 ++ next) ∧ w = w1 ++ w2 ∧ w1 ≠ [] ∧ Piece true w1 v

/-- An action whose value is the text. -/
theorem gives_textual {id : Nat} {e : Exp} {w u : Text} {b : Bool} (hA : Obeys A) (hb : ∀ c ∈ w, (b && isSpecial c) = false)
    (hid : (∀ v x, code id v x = some (.text x)) ∨ (∀ v x, code id v x = some (.str x))) (he : AtMost S e w u) :
    Gives grammar S A (.act id e) (w ++ u) (fun o => o = none ∨ ∃ v, o = some ([v], u) ∧ Piece b w v) := by
  refine gives_act (P := fun o => o = none ∨ ∃ v, o = some (v, u)) ?_ (fun _ => .inl rfl) ?_
  · intro st s r hr
    have := he _ _ _ hr.erase
    rw [ResV.out_rest] at this
    cases ho : r.out with
    | none => exact .inl rfl
    | some x =>
      rw [ho] at this
      rcases this with h | h
      · cases h
      · cases h; exact .inr ⟨x.1, rfl⟩
  · rintro s v u' (h | ⟨v', h⟩)
    · cases h
    · cases h
      refine .inr ⟨_, rfl, ?_⟩
      rw [span_append]
      rcases hid with h | h
      · rw [hA id s v w _ (h v w)]; exact .text hb
      · rw [hA id s v w _ (h v w)]; exact .str hb

theorem atMost_act {e : Exp} {w u : Text} {id : Nat} (h : AtMost S e w u) : AtMost S (.act id e) w u := by
  intro st s r hr
  rcases eval_act.mp hr with ⟨s1, h1, rfl⟩ | ⟨s1, v, h1, rfl⟩
  · exact .inl rfl
  · exact h _ _ (.ok s1 v) h1

/-- One character. -/
theorem took_char {o : Option (List Any × Text)} (h : ∃ v, o = some ([v], w ++ next) ∧ Piece true [c] v) : TookIn (c :: w) next o := by
  obtain ⟨v, h1, h2⟩ := h
  exact ⟨[c], w, v, h1, rfl, by simp, h2⟩

/-- A longest beginning stops before `next`. -/
theorem while_stops {p : Char → Bool} (hn : ∀ c ∈ next.head?, p c = false) : ∀ w : Text,
    (w ++ next).takeWhile p = w.takeWhile p ∧ (w ++ next).dropWhile p = w.dropWhile p ++ next
  | [] => by
    cases next with
    | nil => exact ⟨rfl, rfl⟩
    | cons d x =>
      have := hn d rfl
      exact ⟨List.takeWhile_cons_of_neg (by simp [this]), List.dropWhile_cons_of_neg (by simp [this])⟩
  | d :: w => by
    have ih := while_stops hn w
    by_cases hd : p d = true
    · rw [List.cons_append, List.takeWhile_cons_of_pos hd, List.takeWhile_cons_of_pos hd, List.dropWhile_cons_of_pos hd, List.dropWhile_cons_of_pos hd]
      exact ⟨congrArg (d :: ·) ih.1, ih.2⟩
    · rw [List.cons_append, List.takeWhile_cons_of_neg hd, List.takeWhile_cons_of_neg hd, List.dropWhile_cons_of_neg hd, List.dropWhile_cons_of_neg hd]
      exact ⟨rfl, rfl⟩

theorem took_while {p : Char → Bool} {o : Option (List Any × Text)} (hc : p c = true) (hn : ∀ c ∈ next.head?, p c = false)
    (h : ∃ v, o = some ([v], (c :: (w ++ next)).dropWhile p) ∧ Piece true ((c :: (w ++ next)).takeWhile p) v) : TookIn (c :: w) next o := by
  obtain ⟨v, h1, h2⟩ := h
  have e := while_stops hn (c :: w)
  rw [show c :: (w ++ next) = (c :: w) ++ next from rfl] at h1 h2
  rw [e.2] at h1
  rw [e.1] at h2
  refine ⟨_, _, v, h1, (split_while p (c :: w)).symm, ?_, h2⟩
  rw [List.takeWhile_cons_of_pos hc]
  exact List.cons_ne_nil _ _

theorem gives_InlineText (h : Inl S A E f) (hn : ∀ c ∈ next.head?, S.letter c = false ∧ S.number c = false) :
    Gives grammar S A (.rule R.InlineText) (c :: (w ++ next)) (fun o => o = none ∨ TookIn (c :: w) next o) := by
  let k : Cls := ⟨false, [], [], true, true⟩
  have hk : ∀ d, k.has S.letter S.number d = (S.letter d || S.number d) := fun d => by simp [k, Cls.has]
  cases hc : k.has S.letter S.number c with
  | false => exact gives_never (yields_rule (yields_act (yields_scope (never_seq (yields_act (never_plus_class hc)))))) (.inl rfl)
  | true =>
    have key : Gives grammar S A (.rule R.InlineText) (c :: (w ++ next))
        (fun o => o = none ∨ ∃ v, o = some ([v], (c :: (w ++ next)).dropWhile (k.has S.letter S.number)) ∧ Piece true ((c :: (w ++ next)).takeWhile (k.has S.letter S.number)) v) := by
      refine gives_rule ?_
      have := gives_textual (S := S) (A := A) (id := 440) (e := .scope (.seq (.act 438 (.plus (.cls k))) (.seq (.notP (.scope (.seq
        (.lit [':']) (.pred 439)))) (.notP (.scope (.seq (.lit ['@']) (.cls k))))))) (b := true) (w := (c :: (w ++ next)).takeWhile (k.has S.letter S.number))
        (u := (c :: (w ++ next)).dropWhile (k.has S.letter S.number)) h.obeys ?_ (.inr (fun _ _ => rfl)) (atMost_scope ?_)
      · rw [split_while] at this; exact this
      · intro d hd
        have hk' := mem_takeWhile hd
        cases hs : isSpecial d with
        | false => rfl
        | true =>
          obtain ⟨h1, h2⟩ := h.classes d hs
          rw [hk, h1, h2] at hk'
          cases hk'
      · intro st s r hr
        rcases eval_seq.mp hr with ⟨s1, h1, rfl⟩ | ⟨s1, v, h1, h2⟩
        · exact .inl rfl
        · have hy := yields_act (id := 438) (yields_plus_class (S := S) (t := w ++ next) hc)
          rw [split_while] at h1
          have := hy _ _ _ h1
          cases this
          have h3 := atMost_not (S := S) (a := .notP (.scope (.seq (.lit [':']) (.pred 439)))) (w := [])
            (u := (c :: (w ++ next)).dropWhile (k.has S.letter S.number)) (e := .scope (.seq (.lit ['@']) (.cls k))) ?_ _ _ _ h2
          · exact h3
          · intro st s r hr
            rcases eval_notP.mp hr with ⟨s2, _, rfl⟩ | ⟨s2, v', _, rfl⟩
            · exact .inr rfl
            · exact .inl rfl
    refine key.mono (fun o ho => ho.imp id (took_while hc (fun d hd => ?_)))
    obtain ⟨h1, h2⟩ := hn d hd
    rw [hk, h1, h2]; rfl

theorem gives_Spaces (h : Inl S A E f) (hn : ∀ c ∈ next.head?, isBlank c = false) :
    Gives grammar S A (.rule R.Spaces) (c :: (w ++ next)) (fun o => o = none ∨ TookIn (c :: w) next o) := by
  let k : Cls := ⟨false, ['\t', ' '], [], false, false⟩
  cases hc : k.has S.letter S.number c with
  | false => exact gives_never (yields_rule (yields_act (never_plus_class hc))) (.inl rfl)
  | true =>
    have key : Gives grammar S A (.rule R.Spaces) (c :: (w ++ next))
        (fun o => o = none ∨ ∃ v, o = some ([v], (c :: (w ++ next)).dropWhile (k.has S.letter S.number)) ∧ Piece true ((c :: (w ++ next)).takeWhile (k.has S.letter S.number)) v) := by
      refine gives_rule ?_
      have := gives_textual (S := S) (A := A) (id := 458) (e := .plus (.cls k)) (b := true) (w := (c :: (w ++ next)).takeWhile (k.has S.letter S.number))
        (u := (c :: (w ++ next)).dropWhile (k.has S.letter S.number)) h.obeys ?_ (.inl (fun _ _ => rfl)) (atMost_of_yields ?_)
      · rw [split_while] at this; exact this
      · intro d hd
        have hk := mem_takeWhile hd
        rw [C58.special_not_blank (by rw [← has_blank (S := S)]; exact hk)]; rfl
      · rw [split_while]; exact yields_plus_class hc
    refine key.mono (fun o ho => ho.imp id (took_while hc (fun d hd => ?_)))
    exact (has_blank (S := S) d).trans (hn d hd)

theorem gives_Punctuation (h : Inl S A E f) : Gives grammar S A (.rule R.Punctuation) (c :: (w ++ next)) (fun o => o = none ∨ TookIn (c :: w) next o) := by
  cases hc : isSpecial c with
  | true => exact gives_never (C58.never_Punctuation hc) (.inl rfl)
  | false =>
    refine gives_rule ((gives_textual (w := [c]) (u := w ++ next) (b := true) h.obeys ?_ (.inl (fun _ _ => rfl)) ?_).mono (fun o ho => ho.imp id took_char))
    · intro d hd; rw [List.mem_singleton.mp hd, hc]; rfl
    · exact atMost_alt atMost_cls (atMost_alt (atMost_alt (atMost_scope (atMost_pred atMost_char)) atMost_char) (atMost_alt (atMost_scope
        (atMost_pred (atMost_alt atMost_char (atMost_alt atMost_char (atMost_alt atMost_char atMost_char))))) (atMost_scope (atMost_not
        atMost_char))))

theorem gives_AnyChar (h : Inl S A E f) (hc : isSpecial c = false) :
    Gives grammar S A (.rule R.AnyChar) (c :: (w ++ next)) (fun o => o = none ∨ TookIn (c :: w) next o) := by
  refine gives_rule ((gives_textual (w := [c]) (u := w ++ next) (b := true) h.obeys ?_ (.inl (fun _ _ => rfl)) atMost_cls).mono (fun o ho => ho.imp id took_char))
  intro d hd; rw [List.mem_singleton.mp hd, hc]; rfl

theorem gives_Newline (h : Inl S A E f) (hr : c ≠ '\r') :
    Gives grammar S A (.rule R.Newline) (c :: (w ++ next)) (fun o => o = none ∨ TookIn (c :: w) next o) := by
  by_cases hc : c = '\n'
  · subst hc
    refine gives_rule ((gives_textual (w := ['\n']) (u := w ++ next) (b := true) h.obeys (by decide) (.inl (fun _ _ => rfl)) ?_).mono (fun o ho => ho.imp id took_char))
    exact atMost_of_yields (C58.yields_newline_body.to rfl)
  · refine gives_never (yields_Newline.to ?_) (.inl rfl)
    rw [newline_lit]; simp [matchLit, Ne.symm hc, Ne.symm hr]

theorem gives_SingleNewline (h : Inl S A E f) (hr : c ≠ '\r') :
    Gives grammar S A (.rule R.SingleNewline) (c :: (w ++ next)) (fun o => o = none ∨ TookIn (c :: w) next o) := by
  by_cases hc : c = '\n'
  · subst hc
    refine gives_rule ((gives_textual (w := ['\n']) (u := w ++ next) (b := true) h.obeys (by decide) (.inl (fun _ _ => rfl)) (atMost_scope (atMost_not ?_))).mono
      (fun o ho => ho.imp id took_char))
    exact atMost_of_yields (yields_Newline.to rfl)
  · refine gives_never (yields_rule (yields_act (yields_scope (never_seq (yields_Newline.to ?_))))) (.inl rfl)
    rw [newline_lit]; simp [matchLit, Ne.symm hc, Ne.symm hr]

/-- A special character is one element. -/
theorem gives_SpecialCharacter (h : Inl S A E f) :
    Gives grammar S A (.rule R.SpecialCharacter) (c :: (w ++ next)) (fun o => o = none ∨ TookIn (c :: w) next o) := by
  intro st s r hr
  rcases C58.gives_SpecialCharacter (t := w ++ next) (c := c) h.obeys h.enabled (b := true) (by simpa using h.specialchars) st s r hr with ho | ho
  · exact .inl ho
  · obtain ⟨w1, u, v, ho, h2, h3, h4⟩ := ho
    have hm0 : AtMost S (.act 383 (.scope (.seq (.pred 381) (.act 382 (.alt (.lit ['<']) (.alt (.lit ['>']) (.lit ['&']))))))) [c] (w ++ next) :=
      atMost_act (atMost_scope (atMost_pred (atMost_act (atMost_alt atMost_char (atMost_alt atMost_char atMost_char)))))
    have hm : AtMost S (.rule R.SpecialCharacter) [c] (w ++ next) := fun st s r hr => hm0 _ _ _ (eval_rule.mp hr)
    have := hm _ _ _ hr.erase
    rw [ResV.out_rest, ho] at this
    rcases this with h | h
    · cases h
    · have e : u = w ++ next := Option.some.inj h
      subst e
      have e2 : w1 = [c] := List.append_cancel_right (h2.symm.trans (show c :: (w ++ next) = [c] ++ (w ++ next) from rfl))
      subst e2
      exact .inr ⟨[c], w, v, ho, rfl, by simp, h4⟩

/-! ### Any place of a text -/

theorem no_replacement (hc : c ∉ reserved) (hm : ∀ m ∈ marks .replacements, ¬ m.toList <+: c :: t) : ∀ m ∈ replacing, ¬ m <+: c :: t := by
  intro m h hp
  have one : ∀ d : Char, d ∈ reserved → ¬ [d] <+: c :: t := by
    rintro d hd ⟨z, hz⟩
    exact hc ((List.cons.inj hz).1 ▸ hd)
  rcases List.mem_cons.mp h with rfl | h
  · exact one _ (by decide) hp
  rcases List.mem_cons.mp h with rfl | h
  · exact one _ (by decide : '`' ∈ reserved) (List.IsPrefix.trans ⟨['\''], rfl⟩ hp)
  · obtain ⟨x, hx, rfl⟩ := List.mem_map.mp h
    exact hm x hx hp

theorem not_quoting (hc : c ∉ reserved) : c ∉ quoting := fun h => hc (by
  have : ∀ d ∈ quoting, d ∈ reserved := by decide
  exact this c h)

/-- What may come after a text. -/
def Stops (S : Sem σ) (next : Text) : Prop := ∀ c ∈ next.head?, S.letter c = false ∧ S.number c = false ∧ isBlank c = false ∧ isEol c = false

theorem gives_normal (h : Inl S A E f) (ht : Quiet (c :: (w ++ next))) (hc : c ∉ reserved)
    (hm : ∀ m ∈ "<<" :: marks .replacements, ¬ m.toList <+: c :: (w ++ next)) (hn : Stops S next) :
    Gives grammar S A C58.normalElement (c :: (w ++ next)) (TookIn (c :: w) next) := by
  have hr := no_replacement hc (fun m h => hm m (List.mem_cons_of_mem _ h))
  have hx : ¬ ['<', '<'] <+: c :: (w ++ next) := hm _ List.mem_cons_self
  have hq := not_quoting hc
  have key : Gives grammar S A C58.normalElement (c :: (w ++ next)) (fun o => o = none ∨ TookIn (c :: w) next o) := by
    refine C58.gives_orElse (gives_InlineText h (fun d hd => ⟨(hn d hd).1, (hn d hd).2.1⟩)) (C58.gives_orElse (gives_Spaces h (fun d hd => (hn d hd).2.2.1))
      (gives_alt_never (never_Replacement hr) (gives_alt_never (never_TypographicQuote hr) (C58.gives_orElse (gives_Punctuation h)
      (C58.gives_orElse (gives_Newline h (fun e => hc (e ▸ by decide))) (gives_alt_never (never_AttributeReference h ht) (gives_alt_never (never_Quote hq)
      (gives_alt_never (never_InlineMacro h ht hx) (gives_alt_never (never_Callout h) ?_)))))))))
    cases hs : isSpecial c with
    | true => exact gives_alt_sure (gives_SpecialCharacter h) (C58.sure_SpecialCharacter h.enabled h.specialchars hs)
    | false =>
      exact C58.gives_orElse (gives_SpecialCharacter h) (gives_alt_never (never_LineBreak h ht)
        (gives_alt_never (never_InlinePassthrough h ht) (gives_alt_never (C58.never_ElementPlaceHolder ht.1) (gives_AnyChar h hs))))
  exact (key.and_sure C58.sure_normalElement).mono (fun o ho => ho.1.resolve_left ho.2)

theorem sure_quoted (hl : ¬ (c = '\n' ∧ t.head? = some '\n')) (hr : c ≠ '\r') (hr2 : c = '\n' → t.head? ≠ some '\r') :
    Sure grammar S (.rule R.QuotedTextElement) (c :: t) := by
  refine sure_rule ?_
  by_cases hc : c = '\n'
  · subst hc
    have h1 : Sure grammar S (.rule R.SingleNewline) ('\n' :: t) := by
      refine sure_rule (sure_act (sure_scope ?_))
      refine (yields_seq (yields_Newline.to (o' := some t) rfl) (yields_notP (yields_Newline.to ?_))).sure
      rw [newline_lit]
      cases t with
      | nil => rfl
      | cons d t =>
        have e1 : d ≠ '\n' := fun e => hl ⟨rfl, by rw [e]; rfl⟩
        have e2 : d ≠ '\r' := fun e => hr2 rfl (by rw [e]; rfl)
        simp [matchLit, Ne.symm e1, Ne.symm e2]
    exact sure_alt_right (sure_alt_right (sure_alt_right (sure_alt_right (sure_alt_right (sure_alt_right (sure_alt_left h1))))))
  · have h1 : Sure grammar S (.rule R.AnyChar) (c :: t) := by
      exact (yields_AnyChar (by simp [isEol, hc, hr])).sure
    exact sure_alt_right (sure_alt_right (sure_alt_right (sure_alt_right (sure_alt_right (sure_alt_right (sure_alt_right (sure_alt_right (sure_alt_right
      (sure_alt_right (sure_alt_right h1))))))))))

theorem gives_quotedElement (h : Inl S A E f) (ht : Quiet (c :: (w ++ next))) (hc : c ∉ reserved)
    (hm : ∀ m ∈ "<<" :: marks .replacements, ¬ m.toList <+: c :: (w ++ next)) (hn : Stops S next) (hl : ¬ ['\n', '\n'] <+: c :: w) (hw : '\r' ∉ w) :
    Gives grammar S A (.rule R.QuotedTextElement) (c :: (w ++ next)) (TookIn (c :: w) next) := by
  have hr := no_replacement hc (fun m h => hm m (List.mem_cons_of_mem _ h))
  have hx : ¬ ['<', '<'] <+: c :: (w ++ next) := hm _ List.mem_cons_self
  have hq := not_quoting hc
  have hcr : c ≠ '\r' := fun e => hc (e ▸ by decide)
  have hd : ∀ d, isEol d = true → (w ++ next).head? = some d → w.head? = some d := by
    intro d hd he
    cases w with
    | nil => have := (hn d he).2.2.2; rw [hd] at this; cases this
    | cons x w => exact he
  have hsure : Sure grammar S (.rule R.QuotedTextElement) (c :: (w ++ next)) := by
    refine sure_quoted ?_ hcr ?_
    · rintro ⟨rfl, he⟩
      have := hd _ (by decide) he
      cases w with
      | nil => cases this
      | cons x w => cases this; exact hl ⟨w, rfl⟩
    · rintro rfl he
      have := hd _ (by decide) he
      cases w with
      | nil => cases this
      | cons x w => cases this; exact hw List.mem_cons_self
  have key : Gives grammar S A (.rule R.QuotedTextElement) (c :: (w ++ next)) (fun o => o = none ∨ TookIn (c :: w) next o) := by
    refine gives_rule ?_
    refine C58.gives_orElse (gives_InlineText h (fun d hd => ⟨(hn d hd).1, (hn d hd).2.1⟩)) (C58.gives_orElse (gives_Spaces h (fun d hd => (hn d hd).2.2.1))
      (gives_alt_never (never_Replacement hr) (gives_alt_never (never_TypographicQuote hr) (C58.gives_orElse (gives_Punctuation h)
      (gives_alt_never (never_AttributeReference h ht) (C58.gives_orElse (gives_SingleNewline h hcr) (gives_alt_never (never_QuotedText hq)
      (gives_alt_never (never_InlineMacro h ht hx) ?_))))))))
    cases hs : isSpecial c with
    | true => exact gives_alt_sure (gives_SpecialCharacter h) (C58.sure_SpecialCharacter h.enabled h.specialchars hs)
    | false => exact C58.gives_orElse (gives_SpecialCharacter h) (gives_alt_never (C58.never_ElementPlaceHolder ht.1) (gives_AnyChar h hs))
  exact (key.and_sure hsure).mono (fun o ho => ho.1.resolve_left ho.2)

end C65
end Verif
