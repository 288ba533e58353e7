import Verif.Spec.Composed

/-!
Specification: lists with lists in them, and their HTML.
-/
namespace Verif
namespace Listed
open Paragraphs (Line)
open Grammar (isEol isBlank)
open Prose (char)

/-- What an item begins with: `-`, one to five `*`, one to five dots, a number and a dot, a letter and a dot, or a roman number and a parenthesis. -/
inductive Mark where
  | dash
  | stars (n : Nat)
  | dots (n : Nat)
  | number (ds : Text)
  | letter (c : Char)
  | capital (c : Char)
  | roman (cs : Text)
  | capRoman (cs : Text)

/-- As it is written. -/
def Mark.text : Mark → Text
  | .dash => ['-']
  | .stars n => List.replicate n '*'
  | .dots n => List.replicate n '.'
  | .number ds => ds ++ ['.']
  | .letter c => [c, '.']
  | .capital c => [c, '.']
  | .roman cs => cs ++ [')']
  | .capRoman cs => cs ++ [')']

def Mark.Ok : Mark → Prop
  | .dash => True
  | .stars n => 1 ≤ n ∧ n ≤ 5
  | .dots n => 1 ≤ n ∧ n ≤ 5
  | .number ds => ds ≠ [] ∧ ∀ c ∈ ds, '0' ≤ c ∧ c ≤ '9'
  | .letter c => 'a' ≤ c ∧ c ≤ 'z'
  | .capital c => 'A' ≤ c ∧ c ≤ 'Z'
  | .roman cs => cs ≠ [] ∧ ∀ c ∈ cs, c ∈ ['i', 'v', 'x', 'd', 'l', 'c', 'm']
  | .capRoman cs => cs ≠ [] ∧ ∀ c ∈ cs, c ∈ ['I', 'V', 'X', 'D', 'L', 'C', 'M']

/-- The style of a list: the bullet (0 for `-`, or the number of `*`), or how items are numbered. -/
inductive Style where
  | bullet (k : Nat)
  | arabic | lowerAlpha | lowerRoman | upperAlpha | upperRoman
deriving DecidableEq

def Mark.style : Mark → Style
  | .dash => .bullet 0
  | .stars n => .bullet n
  | .dots 1 => .arabic
  | .dots 2 => .lowerAlpha
  | .dots 3 => .lowerRoman
  | .dots 4 => .upperAlpha
  | .dots _ => .upperRoman
  | .number _ => .arabic
  | .letter _ => .lowerAlpha
  | .capital _ => .upperAlpha
  | .roman _ => .lowerRoman
  | .capRoman _ => .upperRoman

/-- A mark with a space after it: the text is the one of an item. -/
def Looks (t : Text) : Prop := ∃ m : Mark, m.Ok ∧ ∃ b, isBlank b = true ∧ m.text ++ [b] <+: t

/-- An item: the blank lines before it, the spaces before its mark, the mark, the spaces after it, the first line, and the other lines. -/
structure Entry where
  skipped : List Text
  indent : Text
  mark : Mark
  gap : Text
  first : Line
  more : List Line

/-- The line with the mark. -/
def Entry.line (e : Entry) : Text := e.indent ++ (e.mark.text ++ (e.gap ++ e.first.full))

def Entry.lines (e : Entry) : List Text := e.skipped ++ e.line :: e.more.map Line.full

/-- The text of the item. -/
def Entry.body (e : Entry) : Text := Prose.text (e.first :: e.more)

/-- A line that continues an item: it begins with a letter or a number, after spaces perhaps, and is not the line of an item itself. -/
structure Continues (alnum : Char → Bool) (l : Line) : Prop where
  first : ∃ w c r, l.full = w ++ c :: r ∧ (∀ x ∈ w, isBlank x = true) ∧ alnum c = true ∧ ¬ Looks (c :: r)
  noLabel : ¬ [':', ':'] <:+: l.full

/-- An item whose text begins and ends with something to see, and does not begin with a check box or the rest of a thematic break. -/
structure Entry.Ok (alnum : Char → Bool) (e : Entry) : Prop where
  skipped : ∀ l ∈ e.skipped, ∀ c ∈ l, isBlank c = true
  indent : ∀ c ∈ e.indent, isBlank c = true
  mark : e.mark.Ok
  gap : ∃ w, e.gap = ' ' :: w ∧ ∀ c ∈ w, isBlank c = true
  one : e.first.Ok
  first : ∃ c r, e.first.text = c :: r ∧ C48.isSpace c = false ∧ c ∉ ['[', '*', '-']
  more : ∀ l ∈ e.more, l.Ok ∧ Continues alnum l
  last : ∀ c, e.body.getLast? = some c → C48.isSpace c = false

/-- An item with the items of the list in it. -/
inductive Node where
  | node (e : Entry) (below : List Node)

def Node.entry : Node → Entry
  | .node e _ => e

mutual
/-- An item and those in it, in their order. -/
def Node.entries : Node → List Entry
  | .node e ns => e :: entries ns
/-- All items. -/
def entries : List Node → List Entry
  | [] => []
  | n :: ns => n.entries ++ entries ns
end

/-- The lines of a list. -/
def lines (ns : List Node) : List Text := (entries ns).flatMap Entry.lines

/-- The style of a list is that of its first item. -/
def styleOf : List Node → Style
  | [] => .arabic
  | n :: _ => n.entry.mark.style

/-- The bullet of a list in a list. -/
def next (k : Nat) : Nat := min (k + 1) 5

/-- A list in lists of the styles `up` (the innermost first) has another style; in an unordered list, an unordered list has the bullet that comes next. -/
def Opens (up : List Style) (ns : List Node) : Prop :=
  styleOf ns ∉ up ∧ ∀ k j, styleOf ns = .bullet k → up.head? = some (.bullet j) → k = next j

mutual
/-- An item of a list of style `s` in lists of the styles `up`. -/
def Node.Fits (up : List Style) (s : Style) : Node → Prop
  | .node e ns => e.mark.style = s ∧ (ns ≠ [] → Opens (s :: up) ns) ∧ Fit (s :: up) (styleOf ns) ns
/-- All items have the same style. -/
def Fit (up : List Style) (s : Style) : List Node → Prop
  | [] => True
  | n :: ns => n.Fits up s ∧ Fit up s ns
end

/-- The mark of the first item of a document's list has one digit or letter. -/
def Mark.Short : Mark → Prop
  | .number ds => ds.length = 1
  | .roman cs => cs.length = 1
  | .capRoman cs => cs.length = 1
  | _ => True

/-- A list. -/
structure Ok (alnum : Char → Bool) (ns : List Node) : Prop where
  items : ∀ e ∈ entries ns, e.Ok alnum
  fits : Fit [] (styleOf ns) ns
  first : ∃ e below rest, ns = .node e below :: rest ∧ e.skipped = [] ∧ e.mark.Short

/-- Nothing in the text of items is markup. -/
def Plain (ns : List Node) : Prop := ∀ e ∈ entries ns, PlainText.Plain Subs.normal e.body

/-! ### The page -/

/-- A text without the spaces at its ends. -/
def trim (t : Text) : Text := ((t.dropWhile C48.isSpace).reverse.dropWhile C48.isSpace).reverse

/-- The text of an item in HTML: spaces at the ends of lines are dropped. -/
def Entry.html (u : Bool) (e : Entry) : Text := joinLF ((e.first :: e.more).map (fun l => trim (l.text.flatMap (char u))))

/-- The name of a numbering. -/
def Style.name : Style → Text
  | .bullet _ => []
  | .arabic => "arabic".toList
  | .lowerAlpha => "loweralpha".toList
  | .lowerRoman => "lowerroman".toList
  | .upperAlpha => "upperalpha".toList
  | .upperRoman => "upperroman".toList

/-- The type of a numbering. -/
def Style.type : Style → Text
  | .lowerAlpha => " type=\"a\"".toList
  | .lowerRoman => " type=\"i\"".toList
  | .upperAlpha => " type=\"A\"".toList
  | .upperRoman => " type=\"I\"".toList
  | _ => []

/-- A list in HTML, given its items. -/
def Style.html (s : Style) (items : Text) : Text :=
  match s with
  | .bullet _ => "<div class=\"ulist\">\n<ul>\n".toList ++ items ++ "</ul>\n</div>\n".toList
  | s => "<div class=\"olist ".toList ++ s.name ++ "\">\n<ol class=\"".toList ++ s.name ++ "\"".toList ++ s.type ++ ">\n".toList ++ items ++ "</ol>\n</div>\n".toList

mutual
/-- An item in HTML. -/
def Node.html (u : Bool) : Node → Text
  | .node e ns => "<li>\n<p>".toList ++ e.html u ++ "</p>\n".toList ++ (if ns.isEmpty then [] else (styleOf ns).html (itemsHtml u ns)) ++ "</li>\n".toList
/-- Items in HTML. -/
def itemsHtml (u : Bool) : List Node → Text
  | [] => []
  | n :: ns => n.html u ++ itemsHtml u ns
end

/-- A list in HTML. -/
def html (u : Bool) (ns : List Node) : Text := (styleOf ns).html (itemsHtml u ns)

end Listed
end Verif
