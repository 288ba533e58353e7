import Verif.Model.Ifeval
/-!
What the rules for the lines that preprocessing looks at (pkg/parser/parser.peg lines 25-130, 360-364, 723-808) return, as
functions of the text of a line. `Verif.Props.RawLine` proves that the rules accept exactly the lines for which these functions
return something. Attribute declarations and file inclusions are not here: their values are parsed by most of the inline grammar.
-/
namespace Verif
namespace RawLine
open Ifeval

/-- parser.peg:127 the class `[^\r\n []`. -/
def isName (c : Char) : Bool := !(c == '\r' || c == '\n' || c == ' ' || c == '[')

/-- parser.peg:78 the class `[^\r\n\]]`. -/
def isContent (c : Char) : Bool := !(c == '\r' || c == '\n' || c == ']')

/-- parser.peg:70-80 `"]" Space* EOF`, after a content. -/
def pEnd (content : Text) : Text → Option (Option Text)
  | [] => none
  | c :: u => if c = ']' ∧ u.all isSpace then some (if content = [] then none else some content) else none

/-- parser.peg:70-80 `"[" attr:(ConditionalInclusionAttribute)? "]" Space* EOF`. -/
def pContent : Text → Option (Option Text)
  | [] => none
  | c :: t => if c = '[' then pEnd (t.takeWhile isContent) (t.dropWhile isContent) else none

/-- parser.peg:70-76, 123-125: `Ifdef`, `Ifndef`, `EndIf` (whose name is optional), with their keyword: the name and the content. -/
def pCond (kw : Text) (optional : Bool) (l : Text) : Option (Text × Option Text) :=
  match pLit kw l with
  | none => none
  | some t =>
    if t.takeWhile isName = [] ∧ optional = false then none
    else (pContent (t.dropWhile isName)).map (fun c => (t.takeWhile isName, c))

/-- parser.peg:360-364: what follows the name in `AttributeReset`, up to the end of the line. -/
def pResetEnd (colon : Text) : Option (Text × Text) → Option Text
  | none => none
  | some (n, u) =>
    match pLit colon u with
    | none => none
    | some v => if v.all isSpace then some n else none

/-- parser.peg:360-364: the two forms of `AttributeReset`: the name. -/
def pResetForm (alnum : Class) (start colon : Text) (l : Text) : Option Text :=
  match pLit start l with
  | none => none
  | some t => pResetEnd colon (pName alnum t)

/-- parser.peg:360-364 `AttributeReset`: the name. -/
def pReset (alnum : Class) (l : Text) : Option Text :=
  (pResetForm alnum ":!".toList ":".toList l).or (pResetForm alnum ":".toList "!:".toList l)

/-- parser.peg:739-808: at least `k` times `c`, and spaces: how many. -/
def pDelim (c : Char) (k : Nat) (l : Text) : Option Nat :=
  if k ≤ (l.takeWhile (· == c)).length ∧ (l.dropWhile (· == c)).all isSpace then some (l.takeWhile (· == c)).length else none

/-- parser.peg:764 the class of the language. -/
def isLanguage (c : Char) : Bool := !(c == '\r' || c == '\n' || c == '`' || c == ' ')

/-- parser.peg:760-766 `MarkdownCodeDelimiter`. -/
def pCode (l : Text) : Bool :=
  match pLit "```".toList l with
  | none => false
  | some t => decide (t.takeWhile isLanguage ≠ []) && (t.dropWhile isLanguage).all isSpace

/-- parser.peg:739-808, types.go:2228-2262, 2274-2296: the delimiters, with the kind of their block. -/
def delimiters : List (Char × Nat × String) :=
  [('/', 4, "comment"), ('=', 4, "example"), ('`', 3, "fenced"), ('-', 4, "listing"), ('.', 4, "listing"), ('+', 4, "pass"), ('_', 4, "quote"), ('*', 4, "sidebar")]

/-- parser.peg:723-737 `BlockDelimiter`: kind and length. The delimiter of a block of code has length 3 (types.go:2282-2292). -/
def pBlockDelimiter (l : Text) : Option (String × Nat) :=
  if pCode l then some ("fenced", 3)
  else delimiters.findSome? (fun d => (pDelim d.1 d.2.1 l).map (fun n => (d.2.2, n)))

/-- parser.peg:41-58 `RawSection`, after the level: `Spaces ManyChars EOF`. -/
def pTitle (t : Text) : Bool :=
  decide (t.takeWhile isSpace ≠ []) && decide (t.dropWhile isSpace ≠ []) && (t.dropWhile isSpace).all (fun c => !(c == '\r' || c == '\n'))

/-- parser.peg:41-58 `RawSection`, the two first predicates apart: the level. -/
def pSection (l : Text) : Option Nat :=
  let n := (l.takeWhile (· == '=')).length
  if 1 ≤ n ∧ n ≤ 6 ∧ pTitle (l.dropWhile (· == '=')) then some (n - 1) else none

end RawLine
end Verif
