import Verif.Spec.Prose
import Verif.Spec.PlainText

/-!
Specification: documents made of paragraphs, blank lines and delimited blocks, and the pages for them.
-/
namespace Verif
namespace Composed
open Paragraphs (Line Opens Continues)
open Prose (char)
open Grammar (isEol isBlank)

/-- Blocks in which lines are kept as they are. -/
inductive Verbatim where
  | listing | literal | fenced | pass
deriving DecidableEq

/-- Blocks in which there are blocks. -/
inductive Compound where
  | example_ | sidebar | quote | open_
deriving DecidableEq

/-- The character of the delimiters. -/
def Verbatim.mark : Verbatim → Char
  | .listing => '-'
  | .literal => '.'
  | .fenced => '`'
  | .pass => '+'

/-- The number of characters of a delimiter, at least. -/
def Verbatim.least : Verbatim → Nat
  | .fenced => 3
  | _ => 4

/-- The character of the delimiters. -/
def Compound.mark : Compound → Char
  | .example_ => '='
  | .sidebar => '*'
  | .quote => '_'
  | .open_ => '-'

/-- The number of characters of a delimiter: 4 or more, but 2 for open blocks. -/
def Compound.Length (k : Compound) (n : Nat) : Prop := if k = .open_ then n = 2 else 4 ≤ n

/-- A delimiter: `n` times the character `c`, and spaces. -/
def fence (c : Char) (n : Nat) (w : Text) : Text := List.replicate n c ++ w

/-- The delimiters of a block: their number of characters, and the spaces after the first and the second one. -/
structure Fences where
  n : Nat
  first : Text
  last : Text

def Fences.Ok (f : Fences) : Prop := (∀ c ∈ f.first, isBlank c = true) ∧ ∀ c ∈ f.last, isBlank c = true

/-- A line that closes a block whose delimiters have `n` times the character `c`. -/
def Closes (c : Char) (n : Nat) (l : Text) : Prop := ∃ w, (∀ x ∈ w, isBlank x = true) ∧ l = fence c n w

/-- A paragraph, a blank line, or a block. -/
inductive Block where
  | para (first : Line) (rest : List Line)
  | blank (spaces : Text)
  | verb (k : Verbatim) (f : Fences) (ls : List Line)
  | comp (k : Compound) (f : Fences) (bs : List Block)

mutual
/-- The lines of a block. -/
def Block.lines : Block → List Text
  | .para l ls => (l :: ls).map Line.full
  | .blank w => [w]
  | .verb k f ls => fence k.mark f.n f.first :: (ls.map Line.full ++ [fence k.mark f.n f.last])
  | .comp k f bs => fence k.mark f.n f.first :: (lines bs ++ [fence k.mark f.n f.last])
/-- The lines of all blocks. -/
def lines : List Block → List Text
  | [] => []
  | b :: bs => b.lines ++ lines bs
end

/-- The document, with an end of line after each line. -/
def source (bs : List Block) : Text := unlines (lines bs)

/-- On one line, with the spaces at the end set apart. -/
structure Tidy (l : Line) : Prop where
  one : ∀ c ∈ l.full, isEol c = false
  trail : ∀ c ∈ l.trail, isBlank c = true
  last : ∀ c, l.text.getLast? = some c → isBlank c = false

/-- What may follow a paragraph: a blank line, a delimited block other than an open block, or nothing. -/
def Separate : Block → List Block → Prop
  | .para _ _, .para _ _ :: _ => False
  | .para _ _, .comp .open_ _ _ :: _ => False
  | _, _ => True

mutual
/-- The delimiters of blocks are long enough, and a delimiter that closes a block is not a line inside it. (A tab after three back quotes would be the
name of a language.) -/
def Block.Ok (alnum : Char → Bool) : Block → Prop
  | .para l ls => l.Ok ∧ Opens alnum l ∧ ∀ x ∈ ls, x.Ok ∧ Continues x
  | .blank w => ∀ c ∈ w, isBlank c = true
  | .verb k f ls => k.least ≤ f.n ∧ f.Ok ∧ (k = .fenced → f.first.head? ≠ some '\t') ∧ ∀ l ∈ ls, Tidy l ∧ ¬ Closes k.mark f.n l.full
  | .comp k f bs => k.Length f.n ∧ f.Ok ∧ Good alnum bs ∧ ∀ l ∈ lines bs, ¬ Closes k.mark f.n l
/-- A document, or the content of a block. -/
def Good (alnum : Char → Bool) : List Block → Prop
  | [] => True
  | b :: bs => b.Ok alnum ∧ Separate b bs ∧ Good alnum bs
end

mutual
/-- Nothing in the text is markup: in paragraphs, markup of any kind; in listings, literal and fenced blocks, callouts; nothing in passthrough blocks. -/
def Block.Plain : Block → Prop
  | .para l ls => PlainText.Plain Subs.normal (Prose.text (l :: ls))
  | .blank _ => True
  | .verb k _ ls => PlainText.Plain (if k = .pass then [] else Subs.verbatim) (Prose.text ls)
  | .comp _ _ bs => Plains bs
/-- In all blocks. -/
def Plains : List Block → Prop
  | [] => True
  | b :: bs => b.Plain ∧ Plains bs
end

/-! ### The page -/

/-- A character of a passthrough block: the special characters are not escaped. -/
def raw (unicode : Bool) (c : Char) : Text := if PlainText.isSpecial c then [c] else char unicode c

/-- The lines of a block, without the spaces at their ends, and without the empty lines before the first and after the last that is not empty. -/
def body (ls : List Line) : Text := Prose.text (((ls.dropWhile (fun l => l.text.isEmpty)).reverse.dropWhile (fun l => l.text.isEmpty)).reverse)

/-- Blocks that keep their lines, in HTML. -/
def Verbatim.html (u : Bool) : Verbatim → List Line → Text
  | .listing, ls => "<div class=\"listingblock\">\n<div class=\"content\">\n<pre>".toList ++ (body ls).flatMap (char u) ++ "</pre>\n</div>\n</div>\n".toList
  | .literal, ls => "<div class=\"literalblock\">\n<div class=\"content\">\n<pre>".toList ++ (body ls).flatMap (char u) ++ "</pre>\n</div>\n</div>\n".toList
  | .fenced, ls => "<div class=\"listingblock\">\n<div class=\"content\">\n<pre class=\"highlight\"><code>".toList ++ (body ls).flatMap (char u) ++
      "</code></pre>\n</div>\n</div>\n".toList
  | .pass, ls => (body ls).flatMap (raw u) ++ "\n".toList

/-- Blocks with the blocks in them, in HTML. -/
def Compound.html : Compound → Text → Text
  | .example_, t => "<div class=\"exampleblock\">\n<div class=\"content\">\n".toList ++ t ++ "</div>\n</div>\n".toList
  | .sidebar, t => "<div class=\"sidebarblock\">\n<div class=\"content\">\n".toList ++ t ++ "</div>\n</div>\n".toList
  | .quote, t => "<div class=\"quoteblock\">\n<blockquote>\n".toList ++ t ++ "</blockquote>\n</div>\n".toList
  | .open_, t => "<div class=\"openblock\">\n<div class=\"content\">\n".toList ++ t ++ "</div>\n</div>\n".toList

mutual
/-- A block in HTML; nothing for a blank line. -/
def Block.html (u : Bool) : Block → Text
  | .para l ls => "<div class=\"paragraph\">\n<p>".toList ++ (Prose.text (l :: ls)).flatMap (char u) ++ "</p>\n</div>\n".toList
  | .blank _ => []
  | .verb k _ ls => k.html u ls
  | .comp k _ bs => k.html (page u bs)
/-- The whole page, without head. -/
def page (u : Bool) : List Block → Text
  | [] => []
  | b :: bs => b.html u ++ page u bs
end

end Composed
end Verif
