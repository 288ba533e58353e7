import Verif.Model.Grammar
import Verif.Proofs.Peg

/-!
The termination certificate of the grammar: GENERATED by `tools/pegcert.py`; checked by the kernel in
`Verif/Props/Grammar.lean`.
-/
namespace Verif
namespace Grammar

/-- The rules that may succeed on the empty text. -/
def null0 : List Nat := [
  R.IncludedFileLine, R.DelimitedBlockElements, R.AttributeDeclarationValue, R.AttributeDeclarationValueElements,
  R.FirstPositionalAttributes, R.CommentBlockEndDelimiter, R.CommentBlockContent, R.ExampleBlockEndDelimiter,
  R.ExampleBlockContent, R.FencedBlockEndDelimiter, R.FencedBlockContent, R.ListingBlockEndDelimiter,
  R.ListingBlockContent, R.LiteralBlockEndDelimiter, R.LiteralBlockContent, R.MarkdownCodeBlockContent,
  R.OpenBlockEndDelimiter, R.OpenBlockContent, R.PassthroughBlockEndDelimiter, R.PassthroughBlockContent,
  R.QuoteBlockEndDelimiter, R.QuoteBlockContent, R.SidebarBlockEndDelimiter, R.SidebarBlockContent,
  R.ElementPlaceHolderDelimiter, R.YamlFrontMatterContent, R.FrontMatterFragment, R.FrontMatterLine,
  R.FootnoteElements, R.TriplePlusPassthroughContent, R.ExtraListElements, R.LabeledListElementDescription,
  R.DoubleQuoteMarkedTextElements, R.SinglelineCommentContent, R.TableEndDelimiter, R.InlineTableCellContent,
  R.MultilineTableCellContent, R.TableCellFormat, R.TableColumnsAttribute, R.UserMacroValue, R.AnyChars, R.EOF,
  R.EOL]

/-- The rules that may succeed without consuming anything on other texts. -/
def null1 : List Nat := [
  R.AttributeDeclarationValue, R.AttributeDeclarationValueElements, R.FirstPositionalAttributes,
  R.CommentBlockContent, R.ExampleBlockContent, R.FencedBlockContent, R.ListingBlockContent, R.LiteralBlockContent,
  R.MarkdownCodeBlockContent, R.OpenBlockContent, R.PassthroughBlockContent, R.QuoteBlockContent,
  R.SidebarBlockContent, R.YamlFrontMatterContent, R.FrontMatterFragment, R.FrontMatterLine, R.FootnoteElements,
  R.TriplePlusPassthroughContent, R.ExtraListElements, R.ParagraphStyle, R.DoubleQuoteMarkedTextElements,
  R.SinglelineCommentContent, R.InlineTableCellContent, R.MultilineTableCellContent, R.TableCellFormat,
  R.UserMacroValue, R.AnyChars, R.NotEOF]

/-- Without assumptions on the predicates: more rules that may succeed on the empty text. -/
def weak0 : List Nat := [
  R.DocumentAuthorsAndRevision, R.DocumentAuthors, R.DocumentAuthor]

/-- Without assumptions on the predicates: more rules that may succeed without consuming on other texts. -/
def weak1 : List Nat := [
  R.DocumentFragment, R.PositionalAttribute, R.DocumentAuthor, R.Column]

/-- The rules that certainly succeed on the empty text. -/
def sure0 : List Nat := [
  R.IncludedFileLine, R.DelimitedBlockElements, R.AttributeDeclarationValue, R.AttributeDeclarationValueElements,
  R.CommentBlockEndDelimiter, R.CommentBlockContent, R.ExampleBlockEndDelimiter, R.ExampleBlockContent,
  R.FencedBlockEndDelimiter, R.FencedBlockContent, R.ListingBlockEndDelimiter, R.ListingBlockContent,
  R.LiteralBlockEndDelimiter, R.LiteralBlockContent, R.MarkdownCodeBlockContent, R.OpenBlockEndDelimiter,
  R.OpenBlockContent, R.PassthroughBlockEndDelimiter, R.PassthroughBlockContent, R.QuoteBlockEndDelimiter,
  R.QuoteBlockContent, R.SidebarBlockEndDelimiter, R.SidebarBlockContent, R.ElementPlaceHolderDelimiter,
  R.YamlFrontMatterContent, R.FrontMatterFragment, R.FrontMatterLine, R.FootnoteElements,
  R.TriplePlusPassthroughContent, R.ExtraListElements, R.LabeledListElementDescription,
  R.DoubleQuoteMarkedTextElements, R.SinglelineCommentContent, R.TableEndDelimiter, R.InlineTableCellContent,
  R.MultilineTableCellContent, R.TableCellFormat, R.TableColumnsAttribute, R.UserMacroValue, R.AnyChars, R.EOF,
  R.EOL]

/-- The rules that certainly succeed on other texts. -/
def sure1 : List Nat := [
  R.AttributeDeclarationValue, R.AttributeDeclarationValueElements, R.CommentBlockContent, R.ExampleBlockContent,
  R.FencedBlockContent, R.ListingBlockContent, R.LiteralBlockContent, R.MarkdownCodeBlockContent,
  R.OpenBlockContent, R.PassthroughBlockContent, R.QuoteBlockContent, R.SidebarBlockContent,
  R.YamlFrontMatterContent, R.FrontMatterFragment, R.FrontMatterLine, R.FootnoteElements,
  R.TriplePlusPassthroughContent, R.ExtraListElements, R.DoubleQuoteMarkedTextElements, R.SinglelineCommentContent,
  R.InlineTableCellContent, R.MultilineTableCellContent, R.TableCellFormat, R.UserMacroValue, R.AnyChars, R.NotEOF]

/-- The ranks of the rules. -/
def rankTable : List Nat := [
  2, 0, 1, 0, 0, 0, 0, 1, 0, 2, 0, 0, 0, 1, 3, 2, 1, 1, 3, 2, 1, 0, 2, 0, 0, 6, 2, 7, 3, 0, 0, 5, 4, 3, 0, 1, 0, 0,
  0, 0, 5, 0, 4, 0, 0, 3, 5, 2, 1, 4, 0, 3, 0, 3, 3, 2, 0, 1, 0, 0, 0, 2, 1, 0, 0, 1, 5, 1, 0, 0, 0, 0, 0, 0, 0, 0,
  0, 0, 0, 2, 2, 1, 1, 3, 2, 1, 1, 3, 2, 1, 1, 3, 2, 1, 1, 3, 2, 1, 1, 3, 2, 1, 0, 3, 4, 3, 0, 2, 1, 1, 3, 2, 1, 1,
  3, 2, 1, 1, 3, 2, 1, 1, 3, 3, 0, 4, 3, 2, 0, 1, 1, 0, 0, 0, 0, 1, 0, 2, 1, 0, 1, 3, 0, 0, 0, 0, 0, 0, 5, 0, 1, 0,
  0, 0, 0, 1, 7, 6, 0, 1, 1, 0, 1, 1, 0, 0, 3, 0, 0, 2, 1, 0, 0, 5, 4, 5, 4, 3, 0, 1, 0, 6, 4, 2, 1, 2, 1, 0, 3, 2,
  0, 3, 0, 1, 0, 1, 2, 2, 1, 4, 2, 3, 0, 0, 2, 2, 0, 0, 0, 5, 0, 0, 0, 1, 7, 6, 0, 0, 1, 7, 6, 1, 0, 0, 0, 1, 7, 6,
  0, 0, 1, 7, 6, 1, 0, 0, 0, 1, 7, 6, 0, 1, 1, 7, 6, 1, 0, 0, 0, 1, 7, 6, 0, 0, 1, 7, 6, 1, 1, 0, 5, 0, 1, 1, 0, 5,
  0, 1, 0, 7, 6, 1, 6, 7, 6, 4, 2, 5, 2, 0, 1, 0, 1, 0, 1, 0, 0, 0, 0, 0, 0, 0, 0, 0, 0, 2, 0, 1, 1, 5, 1, 0, 0, 4,
  3, 3, 0, 2, 1, 0, 1, 1, 0, 0, 0, 0, 0, 0, 0, 0, 0, 0, 4, 4, 1, 0, 3, 0, 1, 0, 0, 0, 0, 0, 1, 0, 0, 1]

end Grammar
end Verif
