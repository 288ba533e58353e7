import Verif.Spec.Prose
import Verif.Spec.PlainText
import Verif.Model.Render

/-!
Specification: documents of paragraphs with references to attributes and counters, and with declarations of attributes between them.
-/
namespace Verif
namespace Referenced
open Paragraphs (Line)
open PlainText (Plain)
open Grammar (isBlank)

/-- A part of a text. -/
inductive Tok where
  | char (c : Char)
  /-- `{name}`: the value of an attribute -/
  | ref (name : String)
  /-- `\{name}`: not a reference -/
  | kept (name : String)
  /-- `{counter:name}`: the next number -/
  | count (name : String)
  /-- `{counter2:name}`: counts, and shows nothing -/
  | step (name : String)

/-- As it is written. -/
def Tok.written : Tok → Text
  | .char c => [c]
  | .ref n => "{".toList ++ n.toList ++ "}".toList
  | .kept n => "\\{".toList ++ n.toList ++ "}".toList
  | .count n => "{counter:".toList ++ n.toList ++ "}".toList
  | .step n => "{counter2:".toList ++ n.toList ++ "}".toList

def written (ts : List Tok) : Text := ts.flatMap Tok.written

/-! ### What references mean -/

/-- The attributes given when the conversion is started, those that are declared in the document so far, and how far was counted. -/
structure State where
  given : String → Option Text
  declared : String → Option Text
  counts : String → Nat

/-- At the beginning of a document. -/
def State.start (given : String → Option Text) : State := ⟨given, fun _ => none, fun _ => 0⟩

/-- The value of an attribute: what is given from outside wins. -/
def State.value (s : State) (n : String) : Option Text :=
  match s.given n with
  | some v => some v
  | none => s.declared n

/-- After a declaration (`some`) or a reset (`none`). -/
def State.put (s : State) (n : String) (v : Option Text) : State := { s with declared := fun k => if k = n then v else s.declared k }

/-- After counting. -/
def State.counted (s : State) (n : String) : State := { s with counts := fun k => if k = n then s.counts n + 1 else s.counts k }

/-- What a part of a text stands for. -/
def Tok.shown (s : State) : Tok → Text
  | .char c => [c]
  | .ref n => match s.value n with
    | some v => v
    | none => "{".toList ++ n.toList ++ "}".toList
  | .kept n => "{".toList ++ n.toList ++ "}".toList
  | .count n => itoa (s.counts n + 1)
  | .step _ => []

/-- After a part of a text. -/
def Tok.next (s : State) : Tok → State
  | .count n => s.counted n
  | .step n => s.counted n
  | _ => s

/-- What a text stands for: its parts, from left to right. -/
def shown (s : State) : List Tok → Text
  | [] => []
  | t :: ts => t.shown s ++ shown (t.next s) ts

/-- After a text. -/
def next (s : State) (ts : List Tok) : State := ts.foldl Tok.next s

/-! ### Documents -/

/-- A line of a paragraph, and the spaces at its end. -/
structure TLine where
  toks : List Tok
  trail : Text

def TLine.line (l : TLine) : Line := ⟨Referenced.written l.toks, l.trail⟩

/-- The text of a paragraph. -/
def body : List TLine → List Tok
  | [] => []
  | [l] => l.toks
  | l :: ls => l.toks ++ .char '\n' :: body ls

inductive Item where
  | para (first : TLine) (rest : List TLine)
  | blank (spaces : Text)
  /-- `:name: value` -/
  | declare (name : String) (gap : Text) (value : List Tok)
  /-- `:!name:` or `:name!:` -/
  | reset (name : String) (before : Bool) (trail : Text)

/-- The lines of an item. -/
def Item.lines : Item → List Text
  | .para l ls => (l :: ls).map (fun l => l.line.full)
  | .blank w => [w]
  | .declare n gap v => [":".toList ++ n.toList ++ ":".toList ++ gap ++ Referenced.written v]
  | .reset n true trail => [":!".toList ++ n.toList ++ ":".toList ++ trail]
  | .reset n false trail => [":".toList ++ n.toList ++ "!:".toList ++ trail]

def lines (xs : List Item) : List Text := xs.flatMap Item.lines

/-- The document, with an end of line after each line. -/
def source (xs : List Item) : Text := unlines (lines xs)

/-- After an item. -/
def Item.next (s : State) : Item → State
  | .para l ls => Referenced.next s (body (l :: ls))
  | .blank _ => s
  | .declare n _ v => s.put n (some (Referenced.shown s v))
  | .reset n _ _ => s.put n none

/-- An item in HTML: declarations and blank lines show nothing. -/
def Item.html (unicode : Bool) (s : State) : Item → Text
  | .para l ls => "<div class=\"paragraph\">\n<p>".toList ++ (Referenced.shown s (body (l :: ls))).flatMap (Prose.char unicode) ++ "</p>\n</div>\n".toList
  | _ => []

/-- The page, without head: each item with what was declared and counted before it. -/
def page (unicode : Bool) (s : State) : List Item → Text
  | [] => []
  | x :: xs => x.html unicode s ++ page unicode (x.next s) xs

/-! ### Which documents -/

/-- A name: letters, numbers (`alnum`) and hyphens, or an underscore at the beginning. -/
def Name (alnum : Char → Bool) (n : String) : Prop :=
  ∃ c r, n.toList = c :: r ∧ (alnum c = true ∨ c = '_') ∧ ∀ d ∈ r, alnum d = true ∨ d = '-'

/-- The names of characters, which are not looked up (types/predefined_attributes.go:5-35). -/
def characters : List String := ["sp", "blank", "empty", "nbsp", "zwsp", "wj", "apos", "quot", "lsquo", "rsquo", "ldquo", "rdquo", "deg", "plus", "brvbar", "vbar",
  "amp", "lt", "gt", "startsb", "endsb", "caret", "asterisk", "tilde", "backslash", "backtick", "two-colons", "two-semicolons", "cpp"]

/-- A part of the text of a paragraph. -/
def Tok.Ok (alnum : Char → Bool) : Tok → Prop
  | .char c => c ≠ '{' ∧ c ≠ '\\'
  | .ref n => Name alnum n ∧ n ∉ characters
  | .kept n => Name alnum n
  | .count n => Name alnum n
  | .step n => Name alnum n

/-- A part of the value of a declaration: references are replaced there, but nothing else is treated. -/
def Tok.Simple (alnum : Char → Bool) : Tok → Prop
  | .char c => c ∉ ['{', '\\', '<', '>', '&', '+', '\r', '\n']
  | .ref n => Name alnum n ∧ n ∉ characters
  | _ => False

/-- The value of a declaration: it does not begin or end with a space. -/
structure Value (alnum : Char → Bool) (v : List Tok) : Prop where
  nonempty : v ≠ []
  simple : ∀ t ∈ v, t.Simple alnum
  first : ∀ c, v.head? = some (.char c) → Rend.goSpace c = false
  last : ∀ c, v.getLast? = some (.char c) → Rend.goSpace c = false
  noMacro : ¬ "pass:".toList <:+: Referenced.written v

/-- Attributes that change how paragraphs are shown, or what a page is. -/
def reserved : List String := ["unicode", "hardbreaks", "doctype"]

/-- The substitutions after that of attributes (document_substitutions.go:37-45). -/
def later : List Subs.Sub := [.specialchars, .quotes, .replacements, .macros, .postReplacements]

/-- The form of a document: paragraphs are followed by a blank line, or end the document. -/
def Good (alnum : Char → Bool) : List Item → Prop
  | [] => True
  | .blank w :: xs => (∀ c ∈ w, isBlank c = true) ∧ Good alnum xs
  | .para l ls :: xs => (l.line.Ok ∧ Paragraphs.Opens alnum l.line ∧ (∀ x ∈ ls, x.line.Ok ∧ Paragraphs.Continues x.line) ∧
    ∀ t ∈ body (l :: ls), t.Ok alnum) ∧ Plain (.passthroughs :: later) (written (body (l :: ls))) ∧
    (match xs with
    | [] => True
    | .blank _ :: _ => True
    | _ => False) ∧ Good alnum xs
  | .declare n gap v :: xs => (Name alnum n ∧ n ∉ reserved ∧ gap ≠ [] ∧ (∀ c ∈ gap, isBlank c = true) ∧ Value alnum v) ∧ Good alnum xs
  | .reset n _ trail :: xs => (Name alnum n ∧ n ∉ reserved ∧ ∀ c ∈ trail, isBlank c = true) ∧ Good alnum xs

/-- With the values of the attributes in their places, there is nothing to be interpreted in a paragraph, and it does not end with an end of line; values
are not empty. -/
def Fits (s : State) : List Item → Prop
  | [] => True
  | x :: xs => (match x with
    | .para l ls => Plain later (shown s (body (l :: ls))) ∧ (shown s (body (l :: ls))).getLast? ≠ some '\n'
    | .declare _ _ v => shown s v ≠ []
    | _ => True) ∧ Fits (x.next s) xs

end Referenced
end Verif
