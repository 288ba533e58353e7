import Verif.Model.Substitute
import Verif.Model.Include
import Verif.Props.Accepted

/-!
Specification: documents made of paragraphs and blank lines.
-/
namespace Verif
namespace Paragraphs
open Grammar (isEol isBlank)
open Walk (Any)

/-- A line: the text, and the spaces and tabs at its end. -/
structure Line where
  text : Text
  trail : Text

/-- The line as it is written. -/
def Line.full (l : Line) : Text := l.text ++ l.trail

/-- On one line, with something to see, and the spaces at the end set apart. -/
structure Line.Ok (l : Line) : Prop where
  one : ∀ c ∈ l.full, isEol c = false
  visible : C48.Visible l.text
  trail : ∀ c ∈ l.trail, isBlank c = true
  last : ∀ c, l.text.getLast? = some c → isBlank c = false

/-- A line that opens a paragraph: it begins with a letter or a number (`alnum`), and is not an item of a list (`1. `, `a) `, `a:: b`), a block
macro (`image::`) or an admonition (`NOTE: `). -/
structure Opens (alnum : Char → Bool) (l : Line) : Prop where
  first : ∃ c r, l.full = c :: r ∧ alnum c = true ∧ ∀ d x, isBlank x = true → (d = '.' ∨ d = ')') → ¬ [d, x] <+: r
  noLabel : ¬ [':', ':'] <:+: l.full
  noAdmonition : ∀ p ∈ C48.admonitions, ¬ p <+: l.full

/-- The characters with which attributes, titles, comments, delimiters of blocks and list continuations begin. -/
def openers : List Char := ['[', '.', '/', '=', '-', '`', '+', '_', '*']

/-- A line that continues a paragraph: it begins with a letter or a number, or at least not with one of `openers`. -/
def Continues (l : Line) : Prop := ∀ c r, l.full = c :: r → c ∉ openers

/-- A paragraph, or a blank line. -/
inductive Block where
  | para (first : Line) (rest : List Line)
  | blank (spaces : Text)

/-- Its lines. -/
def Block.lines : Block → List Text
  | .para l ls => (l :: ls).map Line.full
  | .blank w => [w]

/-- A document: paragraphs are followed by a blank line, or end the document. -/
def Good (alnum : Char → Bool) : List Block → Prop
  | [] => True
  | .blank w :: bs => (∀ c ∈ w, isBlank c = true) ∧ Good alnum bs
  | .para l ls :: bs => l.Ok ∧ Opens alnum l ∧ (∀ x ∈ ls, x.Ok ∧ Continues x) ∧
    (match bs with
    | .para _ _ :: _ => False
    | _ => True) ∧ Good alnum bs

/-- The lines of a document. -/
def lines (bs : List Block) : List Text := bs.flatMap Block.lines

/-- The document, with an end of line after each line. -/
def source (bs : List Block) : Text := unlines (lines bs)

/-- The document without the blank line at its end. -/
def trimmed (bs : List Block) : List Block :=
  match bs.getLast? with
  | some (.blank []) => bs.dropLast
  | _ => bs

/-- The lines of a paragraph, as they are kept: without the spaces at their ends, with the ends of lines between them. -/
def kept : List Line → List Any
  | [] => []
  | [l] => [.raw l.text]
  | l :: ls => .raw (l.text ++ ['\n']) :: kept ls

/-- What becomes of a block. -/
def Block.element : Block → Any
  | .para l ls => .paragraph [] (kept (l :: ls))
  | .blank _ => .leaf 0

end Paragraphs
end Verif
