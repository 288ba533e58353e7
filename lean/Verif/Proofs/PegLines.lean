import Verif.Proofs.Tokens

/-!
Which rules stop at the end of a line: a static analysis, its soundness, and its table for the grammar.
-/
namespace Verif
namespace Peg
open Grammar (isEol)

/-- `u` is what remains of `t` after the end of a line, or nothing remains. -/
def LineEnd (t u : Text) : Prop := u = [] ∨ ∃ p c, t = p ++ c :: u ∧ isEol c = true

theorem LineEnd.append {t v u : Text} (hs : v <:+ t) (h : LineEnd v u) : LineEnd t u := by
  rcases h with h | ⟨p, c, h, hc⟩
  · exact .inl h
  · obtain ⟨q, rfl⟩ := hs
    exact .inr ⟨q ++ p, c, by rw [h, List.append_assoc], hc⟩

/-- Nothing is consumed, or the expression stops at the end of a line. -/
def lineEnds (C : Cert) (tab : Nat → Bool) : Exp → Bool
  | .lit l => match l.getLast? with
    | none => true
    | some c => isEol c
  | .any => false
  | .litI l => l.isEmpty
  | .cls _ => false
  | .seq a b => lineEnds C tab b && (lineEnds C tab a || !(an1 C b).1)
  | .alt a b => lineEnds C tab a && lineEnds C tab b
  | .star e => lineEnds C tab e
  | .plus e => lineEnds C tab e
  | .opt e => lineEnds C tab e
  | .rule i => tab i
  | .act _ e => lineEnds C tab e
  | .scope e => lineEnds C tab e
  | _ => true

theorem matchLit_ends : ∀ (l : List Char) (t u : Text), matchLit l t = some u →
    (match l.getLast? with | none => true | some c => isEol c) = true → u = t ∨ LineEnd t u
  | [], t, u, h, _ => .inl (by cases h; rfl)
  | a :: s, [], u, h, _ => .inr (.inl (by
      have := matchLit_suffix (a :: s) [] u h
      exact List.eq_nil_of_suffix_nil this))
  | a :: s, c :: t, u, h, hl => by
    unfold matchLit at h
    split at h
    · next he =>
      subst he
      cases s with
      | nil =>
        cases h
        exact .inr (.inr ⟨[], a, rfl, hl⟩)
      | cons b s =>
        rcases matchLit_ends (b :: s) t u h (by simpa using hl) with e | e
        · -- consuming nothing: only at the end of the text
          subst e
          cases u with
          | nil => exact .inr (.inl rfl)
          | cons d u =>
            unfold matchLit at h
            split at h
            · have := (matchLit_suffix s u _ h).length_le
              simp at this
              omega
            · cases h
        · exact .inr (LineEnd.append (List.suffix_cons a t) e)
    · cases h

section
variable {σ : Type} (C : Cert) (G : Nat → Exp) (S : Sem σ)

/-- Soundness. -/
theorem line_ends (hC : Sound C G) (hS : Progress C S) (tab : Nat → Bool)
    (hG : ∀ i, tab i = true → lineEnds C tab (G i) = true) :
    ∀ (n : Nat) (e : Exp) (st : Text) (s : σ) (t : Text) (r : Res σ), lineEnds C tab e = true →
      run G S n e st s t = some r → ∀ u, r.rest = some u → u = t ∨ LineEnd t u := by
  intro n
  induction n with
  | zero => intro e st s t r _ h; cases h
  | succ n ih =>
    intro e st s t r he h u hu
    cases e with
    | eps => cases h; cases hu; exact .inl rfl
    | any => cases he
    | cls => cases he
    | lit l =>
      rw [eval_lit.mp (eval_of_run h)] at hu
      cases hm : matchLit l t with
      | none => rw [hm] at hu; cases hu
      | some v =>
        rw [hm] at hu; cases hu
        exact matchLit_ends l t _ hm he
    | litI l =>
      cases l with
      | nil => rw [eval_litI.mp (eval_of_run h)] at hu; cases hu; exact .inl rfl
      | cons => cases he
    | pred id =>
      rw [eval_pred.mp (eval_of_run h)] at hu
      rcases hp : S.pred id s st t with ⟨b, s'⟩
      rw [hp] at hu
      cases b <;> cases hu
      exact .inl rfl
    | state id => cases h; cases hu; exact .inl rfl
    | rule i => exact ih (G i) t s t r (hG i he) h u hu
    | seq a b =>
      simp only [lineEnds, Bool.and_eq_true, Bool.or_eq_true, Bool.not_eq_true'] at he
      unfold run at h
      cases ha : run G S n a st s t with
      | none => rw [ha] at h; cases h
      | some ra =>
        rw [ha] at h
        cases ra with
        | fail s1 => cases h; cases hu
        | ok s1 v =>
          have hsuf := (fact C G S hC hS n a st s t _ ha).suffix v rfl
          have fb := fact C G S hC hS n b st s1 v _ h
          rcases ih b st s1 v r he.1 h u hu with e | e
          · subst e
            rcases he.2 with hea | heb
            · exact ih a st s t _ hea ha u rfl
            · by_cases h0 : u = []
              · exact .inr (.inl h0)
              · exact absurd (fb.may1 h0 hu) (by simp [heb])
          · exact .inr (LineEnd.append hsuf e)
    | alt a b =>
      simp only [lineEnds, Bool.and_eq_true] at he
      unfold run at h
      cases ha : run G S n a st s t with
      | none => rw [ha] at h; cases h
      | some ra =>
        rw [ha] at h
        cases ra with
        | fail s1 => exact ih b st _ t r he.2 h u hu
        | ok s1 v => cases h; exact ih a st s t _ he.1 ha u hu
    | star e =>
      unfold run at h
      cases ha : run G S n e st s t with
      | none => rw [ha] at h; cases h
      | some ra =>
        rw [ha] at h
        cases ra with
        | fail s1 => cases h; cases hu; exact .inl rfl
        | ok s1 v =>
          have hsuf := (fact C G S hC hS n e st s t _ ha).suffix v rfl
          rcases ih (.star e) st s1 v r he h u hu with e' | e'
          · subst e'; exact ih e st s t _ he ha u rfl
          · exact .inr (LineEnd.append hsuf e')
    | plus e =>
      unfold run at h
      cases ha : run G S n e st s t with
      | none => rw [ha] at h; cases h
      | some ra =>
        rw [ha] at h
        cases ra with
        | fail s1 => cases h; cases hu
        | ok s1 v =>
          have hsuf := (fact C G S hC hS n e st s t _ ha).suffix v rfl
          rcases ih (.star e) st s1 v r he h u hu with e' | e'
          · subst e'; exact ih e st s t _ he ha u rfl
          · exact .inr (LineEnd.append hsuf e')
    | opt e =>
      unfold run at h
      cases ha : run G S n e st s t with
      | none => rw [ha] at h; cases h
      | some ra =>
        rw [ha] at h
        cases ra with
        | fail s1 => cases h; cases hu; exact .inl rfl
        | ok s1 v => cases h; exact ih e st s t _ he ha u hu
    | andP e =>
      unfold run at h
      cases ha : run G S n e st s t with
      | none => rw [ha] at h; cases h
      | some ra =>
        rw [ha] at h
        cases ra <;> cases h <;> cases hu
        exact .inl rfl
    | notP e =>
      unfold run at h
      cases ha : run G S n e st s t with
      | none => rw [ha] at h; cases h
      | some ra =>
        rw [ha] at h
        cases ra <;> cases h <;> cases hu
        exact .inl rfl
    | act id e =>
      unfold run at h
      cases ha : run G S n e st s t with
      | none => rw [ha] at h; cases h
      | some ra =>
        rw [ha] at h
        cases ra with
        | fail s1 => cases h; cases hu
        | ok s1 v => cases h; exact ih e st s t _ he ha u hu
    | scope e =>
      unfold run at h
      cases ha : run G S n e t s t with
      | none => rw [ha] at h; cases h
      | some ra =>
        rw [ha] at h
        cases ra with
        | fail s1 => cases h; cases hu
        | ok s1 v => cases h; exact ih e t s t _ he ha u hu

end
end Peg

namespace Grammar
open Peg

/-- The rules that stop at the end of a line (computed by `tools/peglines.py`, checked by the kernel). -/
def lineRules : List Nat := [
  R.DocumentRawLine, R.RawSection, R.ConditionalInclusion, R.Ifdef, R.Ifndef, R.Ifeval, R.EndIf, R.FileInclusion,
  R.LineRanges, R.TagRanges, R.IncludedFileLine, R.DocumentFragment, R.RawLine, R.DelimitedBlockElements,
  R.FrontMatterFragmentElement, R.AttributeDeclaration, R.AttributeReset, R.BlockAttributes, R.BlankLine,
  R.DelimitedBlock, R.BlockDelimiter, R.CommentBlockDelimiter, R.ExampleBlockDelimiter, R.FencedBlockDelimiter,
  R.MarkdownCodeDelimiter, R.ListingBlockDelimiter, R.OpenBlockDelimiter, R.LiteralBlockDelimiter,
  R.PassthroughBlockDelimiter, R.QuoteBlockDelimiter, R.SidebarBlockDelimiter, R.DelimitedBlockRawLine,
  R.CommentBlock, R.CommentBlockStartDelimiter, R.CommentBlockEndDelimiter, R.CommentBlockContent, R.ExampleBlock,
  R.ExampleBlockStartDelimiter, R.ExampleBlockEndDelimiter, R.ExampleBlockContent, R.FencedBlock,
  R.FencedBlockStartDelimiter, R.FencedBlockEndDelimiter, R.FencedBlockContent, R.ListingBlock,
  R.ListingBlockStartDelimiter, R.ListingBlockEndDelimiter, R.ListingBlockContent, R.LiteralBlock,
  R.LiteralBlockStartDelimiter, R.LiteralBlockEndDelimiter, R.LiteralBlockContent, R.MarkdownCodeBlock,
  R.MarkdownCodeBlockStartDelimiter, R.MarkdownCodeBlockEndDelimiter, R.MarkdownCodeBlockContent,
  R.MarkdownQuoteBlock, R.MarkdownQuoteRawLine, R.MarkdownQuoteAttribution, R.OpenBlock, R.OpenBlockStartDelimiter,
  R.OpenBlockEndDelimiter, R.OpenBlockContent, R.PassthroughBlock, R.PassthroughBlockStartDelimiter,
  R.PassthroughBlockEndDelimiter, R.PassthroughBlockContent, R.QuoteBlock, R.QuoteBlockStartDelimiter,
  R.QuoteBlockEndDelimiter, R.QuoteBlockContent, R.SidebarBlock, R.SidebarBlockStartDelimiter,
  R.SidebarBlockEndDelimiter, R.SidebarBlockContent, R.DocumentHeader, R.DocumentTitle,
  R.DocumentAuthorsAndRevision, R.DocumentAuthors, R.DocumentRevision, R.FrontMatter, R.YamlFrontMatter,
  R.YamlFrontMatterDelimiter, R.FrontMatterDelimiter, R.ImageBlock, R.ListElements, R.ListElement,
  R.ExtraListElements, R.ExtraListElement, R.ListElementParagraphLine, R.ListElementContent, R.ListContinuation,
  R.ListContinuationMarker, R.ListContinuationElement, R.ListContinuationParagraph, R.OrderedListElement,
  R.UnorderedListElement, R.LabeledListElement, R.LabeledListElementDescription, R.CalloutListElement,
  R.ShortcutParagraph, R.Paragraph, R.ParagraphRawLine, R.Section, R.NormalGroup, R.AttributeStructuredValue,
  R.SinglelineComment, R.Table, R.TableDelimiter, R.TableStartDelimiter, R.TableEndDelimiter, R.InlineTableCells,
  R.TableColumnsAttribute, R.ThematicBreak, R.UserMacroBlock, R.Newline, R.SingleNewline, R.NotEOF, R.EOF, R.EOL]

theorem lineRules_ok : (List.range 338).all (fun i => !lineRules.contains i ||
    lineEnds cert (fun i => lineRules.contains i) (grammar i)) = true := by decide +kernel

/-- A rule of the list stops at the end of a line. -/
theorem rule_line_ends {σ : Type} {S : Sem σ} (hS : Progress cert S) {e : Exp}
    (he : lineEnds cert (fun i => lineRules.contains i) e = true) {n : Nat} {st : Text} {s s' : σ} {t u : Text}
    (h : run grammar S n e st s t = some (.ok s' u)) : u = t ∨ LineEnd t u := by
  refine line_ends cert grammar S valid.toSound hS (fun i => lineRules.contains i) ?_ n e st s t _ he h u rfl
  intro i hi
  by_cases hlt : i < 338
  · have := List.all_eq_true.mp lineRules_ok i (List.mem_range.mpr hlt)
    simp only [Bool.or_eq_true, Bool.not_eq_true'] at this
    exact this.resolve_left (by simpa using hi)
  · rw [grammar_none hlt]; rfl

end Grammar
end Verif
