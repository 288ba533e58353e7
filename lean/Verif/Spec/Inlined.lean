import Verif.Spec.Prose
import Verif.Spec.PlainText

/-!
Specification: text with inline markup, as it is written and as it is shown.
-/
namespace Verif
namespace Inlined
open Grammar (isEol isBlank)
open Prose (char)
open Subs (Sub)

/-- Marks around text. -/
inductive Mark where
  | bold | italic | mono | highlight
deriving DecidableEq, Repr

def Mark.char : Mark → Char
  | .bold => '*'
  | .italic => '_'
  | .mono => '`'
  | .highlight => '#'

def Mark.tag : Mark → Text
  | .bold => "strong".toList
  | .italic => "em".toList
  | .mono => "code".toList
  | .highlight => "mark".toList

/-- What is written in ASCII for a character that is not. -/
inductive Sign where
  | copyright | registered | trademark | ellipsis | rightArrow | leftArrow | doubleRightArrow | doubleLeftArrow
  | openDouble | closeDouble | openSingle | closeSingle | apostrophe | dash
deriving DecidableEq, Repr

def Sign.written : Sign → Text
  | .copyright => "(C)".toList
  | .registered => "(R)".toList
  | .trademark => "(TM)".toList
  | .ellipsis => "...".toList
  | .rightArrow => "->".toList
  | .leftArrow => "<-".toList
  | .doubleRightArrow => "=>".toList
  | .doubleLeftArrow => "<=".toList
  | .openDouble => "\"`".toList
  | .closeDouble => "`\"".toList
  | .openSingle => "'`".toList
  | .closeSingle => "`'".toList
  | .apostrophe => "'".toList
  | .dash => "--".toList

/-- The characters it stands for: ©, ®, ™, …, →, ←, ⇒, ⇐, “, ”, ‘, ’, ’ and —; a zero-width space after those that may end a line. -/
def Sign.shown : Sign → Text
  | .copyright => ['©']
  | .registered => ['®']
  | .trademark => ['™']
  | .ellipsis => ['…', '\u200B']
  | .rightArrow => ['→']
  | .leftArrow => ['←']
  | .doubleRightArrow => ['⇒']
  | .doubleLeftArrow => ['⇐']
  | .openDouble => ['“']
  | .closeDouble => ['”']
  | .openSingle => ['‘']
  | .closeSingle => ['’']
  | .apostrophe => ['’']
  | .dash => ['—', '\u200B']

/-- A character by its number. -/
def entity (c : Char) : Text := "&#".toList ++ itoa c.toNat ++ ";".toList

/-- Text with inline markup: text; signs; text with a mark before and after it, or with two (`twice`); subscripts, and superscripts (`up`); references to other places
of the document, with or without a label. -/
inductive Piece where
  | text (t : Text)
  | sign (s : Sign)
  | marked (m : Mark) (twice : Bool) (ps : List Piece)
  | script (up : Bool) (t : Text)
  | ref (id : Text) (label : Option Text)

mutual
/-- As it is written. -/
def Piece.written : Piece → Text
  | .text t => t
  | .sign s => s.written
  | .marked m false ps => m.char :: (written ps ++ [m.char])
  | .marked m true ps => m.char :: m.char :: (written ps ++ [m.char, m.char])
  | .script false t => '~' :: (t ++ ['~'])
  | .script true t => '^' :: (t ++ ['^'])
  | .ref id none => "<<".toList ++ id ++ ">>".toList
  | .ref id (some l) => "<<".toList ++ id ++ ',' :: l ++ ">>".toList
def written : List Piece → Text
  | [] => []
  | p :: ps => p.written ++ written ps
end

/-- An HTML element without attributes. -/
def tagged (tag : Text) (t : Text) : Text := '<' :: tag ++ '>' :: t ++ "</".toList ++ tag ++ ['>']

/-- What depends on the rest of the document and on the configuration: whether characters that are not in ASCII are written as they are; how addresses are written in
lower case; the place that is meant by a reference; and what is shown for a place, in HTML. -/
structure View where
  unicode : Bool
  lower : Text → Text
  target : Text → Text
  label : Text → Text

/-- A link to a place of the page. -/
def link (v : View) (id : Text) (label : Text) : Text := "<a href=\"#".toList ++ v.lower id ++ "\">".toList ++ label ++ "</a>".toList

mutual
/-- As it is shown in HTML. A label is shown as it is written. -/
def Piece.html (v : View) : Piece → Text
  | .text t => t.flatMap (char v.unicode)
  | .sign s => s.shown.flatMap entity
  | .marked m _ ps => tagged m.tag (html v ps)
  | .script false t => tagged "sub".toList (t.flatMap (char v.unicode))
  | .script true t => tagged "sup".toList (t.flatMap (char v.unicode))
  | .ref id l => link v (v.target id) (l.getD (v.label (v.target id)))
def html (v : View) : List Piece → Text
  | [] => []
  | p :: ps => p.html v ++ html v ps
end

/-! ### Which texts are meant

A mark is only one if it stands where it can: the parser looks at the last byte of what precedes it (`prev`, nothing at the beginning), and at what
follows (`next`). -/

/-- The last byte of a character in UTF-8, taken as a character. -/
def lastByte (c : Char) : Char := Char.ofNat ((String.utf8EncodeChar c).getLast?.getD 0).toNat

/-- The last byte before what follows the text `w`. -/
def after (prev : Option Char) (w : Text) : Option Char :=
  match w.getLast? with
  | some c => some (lastByte c)
  | none => prev

/-- Control characters and spaces, among the bytes. -/
def isGap (c : Char) : Bool := decide (c.toNat ≤ 32) || (decide (127 ≤ c.toNat) && decide (c.toNat ≤ 160))

section
variable (letter number : Char → Bool)

/-- The characters of marks, and those which escape marks or begin attributes. -/
def reserved : List Char := ['*', '_', '`', '#', '^', '~', '[', '\\', '\'', '\r']

/-- The text `w` before `next` contains none of the signs, and no reference. -/
def Clear (next : Text) : Text → Prop
  | [] => True
  | c :: w => (∀ m ∈ "<<" :: PlainText.marks .replacements, ¬ m.toList <+: c :: w ++ next) ∧ Clear next w

/-- Text: without marks and signs, up to something else. -/
structure TextOk (t next : Text) : Prop where
  some : t ≠ []
  ordinary : ∀ c ∈ t, c ∉ reserved
  clear : Clear next t
  lines : ¬ ['\n', '\n'] <:+: t
  stops : ∀ c ∈ next.head?, letter c = false ∧ number c = false ∧ isBlank c = false ∧ isEol c = false

/-- A letter or a number before. -/
def wordBefore (prev : Option Char) : Prop := ∃ c, prev = some c ∧ (letter c = true ∨ number c = true) ∧ isGap c = false

/-- Signs: curved quotes are not followed by a back quote, an apostrophe is between a letter or a number and a letter, and a dash between letters and numbers. -/
def Sign.Ok (prev : Option Char) (next : Text) : Sign → Prop
  | .openDouble | .closeDouble | .openSingle | .closeSingle => next.head? ≠ some '`'
  | .apostrophe => wordBefore letter number prev ∧ ∃ c ∈ next.head?, letter c = true
  | .dash => wordBefore letter number prev ∧ ∃ c ∈ next.head?, letter c = true ∨ number c = true
  | _ => True

/-- A mark may open after spaces, punctuation, or nothing; but not after letters, numbers, and `!`, `,`, `;` and `}`. -/
def MayOpen (prev : Option Char) : Prop :=
  ∀ c ∈ prev, letter c = false ∧ number c = false ∧ c ∉ ['!', ',', ';', '}']

/-- The text between marks: no space first, and not another mark. -/
def Mark.Begins (m : Mark) (t : Text) : Prop :=
  ∃ c ∈ t.head?, isBlank c = false ∧ c ≠ m.char ∧ (m = .mono → c ≠ '"' ∧ c ≠ '\'')

/-- What follows the closing mark. -/
def Mark.Ends (m : Mark) (next : Text) : Prop :=
  ∀ c ∈ next.head?, letter c = false ∧ number c = false ∧ c ≠ m.char ∧ (m = .mono → c ≠ '"' ∧ c ≠ '\'')

/-- The label of a reference: it begins with a letter or a number, and there is more. -/
def LabelOk (l : Text) : Prop := ∃ c r, l = c :: r ∧ r ≠ [] ∧ (letter c = true ∨ number c = true) ∧ ∀ d ∈ r, d ∉ ['\r', '\n', '{', '<', '>']

/-- The same mark. -/
def Piece.has (m : Mark) : Piece → Bool
  | .marked n _ _ => n == m
  | _ => false

mutual
def Piece.Ok (prev : Option Char) (next : Text) : Piece → Prop
  | .text t => TextOk letter number t next
  | .sign s => s.Ok letter number prev next
  | .marked m false ps => ps ≠ [] ∧ (∀ p ∈ ps, p.has m = false) ∧ MayOpen letter number prev ∧ m.Begins (Inlined.written ps) ∧
      Ok prev (m.char :: next) ps ∧ (∀ c ∈ after prev (Inlined.written ps), isGap c = false) ∧ m.Ends letter number next
  | .marked m true ps => ps ≠ [] ∧ (∀ p ∈ ps, p.has m = false) ∧ Ok prev (m.char :: m.char :: next) ps
  | .script up t => t ≠ [] ∧ (∀ c ∈ t, c ∉ ['\r', '\n', ' ', if up then '^' else '~', '<', '>', '&']) ∧ ∀ c ∈ t.head?, c ∉ reserved
  | .ref id l => id ≠ [] ∧ (∀ c ∈ id, c ∉ ['[', ']', '<', '>', ',']) ∧ ∀ t ∈ l, LabelOk letter number t
/-- Pieces between `prev` and `next`. -/
def Ok (prev : Option Char) (next : Text) : List Piece → Prop
  | [] => True
  | p :: ps => p.Ok prev (Inlined.written ps ++ next) ∧ Ok (after prev p.written) next ps
end

end

/-- The other substitutions have nothing to do, and there are no macros except references. -/
def Quiet (t : Text) : Prop :=
  PlainText.Plain [.passthroughs, .attributes, .specialchars, .postReplacements] t ∧ ∀ m ∈ PlainText.marks .macros, m ≠ "<<" → ¬ m.toList <:+: t

/-- Inline content: a text with markup. -/
structure Content (letter number : Char → Bool) (t : Text) (ps : List Piece) : Prop where
  written : t = Inlined.written ps
  ok : Ok letter number none [] ps
  quiet : Quiet t

/-- A paragraph in HTML, for a reading of its text; nothing for a blank line. -/
def block (v : View) (reading : Text → List Piece) : Paragraphs.Block → Text
  | .para l ls => "<div class=\"paragraph\">\n<p>".toList ++ html v (reading (Prose.text (l :: ls))) ++ "</p>\n</div>\n".toList
  | .blank _ => []

/-- Where there is nothing to refer to: references show what they refer to. -/
def alone (lower : Text → Text) (u : Bool) : View := ⟨u, lower, id, fun i => '[' :: i ++ [']']⟩

/-- The whole page, without head. -/
def page (lower : Text → Text) (u : Bool) (reading : Text → List Piece) (bs : List Paragraphs.Block) : Text := bs.flatMap (block (alone lower u) reading)

/-- Characters with names, which stand for them as references to attributes, `{nbsp}`: what a reader sees. -/
def named : List (String × Text) :=
  [("sp", [' ']), ("blank", []), ("empty", []), ("nbsp", ['\u00A0']), ("zwsp", ['\u200B']), ("wj", ['\u2060']), ("apos", ['\'']), ("quot", ['"']),
   ("lsquo", ['‘']), ("rsquo", ['’']), ("ldquo", ['“']), ("rdquo", ['”']), ("deg", ['°']), ("plus", ['+']), ("brvbar", ['¦']), ("vbar", ['|']), ("amp", ['&']),
   ("lt", ['<']), ("gt", ['>']), ("startsb", ['[']), ("endsb", [']']), ("caret", ['^']), ("asterisk", ['*']), ("tilde", ['~']), ("backslash", ['\\']),
   ("backtick", ['`']), ("two-colons", [':', ':']), ("two-semicolons", [';', ';']), ("cpp", ['C', '+', '+'])]

end Inlined
end Verif
