import Verif.Spec.Listed

/-!
Specification: documents with sections and lists, and the pages for them.
-/
namespace Verif
namespace Sectioned
open Composed (Block)
open Grammar (isEol isBlank)

/-- The title of a section: its level (1 to 5; level 1 is written with two equal signs), the spaces before the title, the title, and the spaces after it. -/
structure Heading where
  level : Nat
  gap : Text
  title : Text
  trail : Text

/-- The line. -/
def Heading.line (h : Heading) : Text := List.replicate (h.level + 1) '=' ++ (h.gap ++ (h.title ++ h.trail))

/-- What is interpreted in titles: quoted text, replacements, special characters, passthroughs, references to attributes, links and addresses, icons, footnotes and
anchors; and what starts an escape. -/
def marks : List String :=
  ["'", "\\", "(C)", "(R)", "(TM)", "...", "--", "*", "_", "`", "#", "^", "~", "+", "pass:", "{", "[", "<", ">", "&", "@", "link:",
   "http://", "https://", "ftp://", "irc://", "mailto:", "icon:", "footnote:", "\uFFFD"]

/-- A title on one line, that begins and ends with something to see, and in which nothing is to be interpreted. -/
structure Heading.Ok (h : Heading) : Prop where
  least : 1 ≤ h.level
  most : h.level ≤ 5
  apart : h.gap ≠ []
  gap : ∀ c ∈ h.gap, isBlank c = true
  trail : ∀ c ∈ h.trail, c = ' '
  one : ∀ c ∈ h.title, isEol c = false
  some_ : h.title ≠ []
  first : ∀ c, h.title.head? = some c → C48.isSpace c = false
  last : ∀ c, h.title.getLast? = some c → C48.isSpace c = false
  plain : ∀ m ∈ marks, ¬ m.toList <:+: h.title ++ h.trail

/-- A block, the title of a section, or a list. -/
inductive Item where
  | block (b : Block)
  | heading (h : Heading)
  | list (first : Listed.Node) (rest : List Listed.Node)

def Item.lines : Item → List Text
  | .block b => b.lines
  | .heading h => [h.line]
  | .list n ns => Listed.lines (n :: ns)

/-- The lines of the document. -/
def lines (xs : List Item) : List Text := xs.flatMap Item.lines

/-- The document, with an end of line after each line. -/
def source (xs : List Item) : Text := unlines (lines xs)

/-- What may follow a list after blank lines: anything but a list, a paragraph whose first line looks like an item, or a title with two colons. -/
def Ends : List Item → Prop
  | [] => True
  | .block (.blank _) :: xs => Ends xs
  | .block (.para l _) :: _ => ¬ Listed.Looks l.full
  | .block _ :: _ => True
  | .heading h :: _ => ¬ [':', ':'] <:+: h.line
  | .list _ _ :: _ => False

/-- What may follow a paragraph: a blank line, a delimited block other than an open block, or nothing; and a list: the same. -/
def Separate : Item → List Item → Prop
  | .block (.para _ _), .block (.para _ _) :: _ => False
  | .block (.para _ _), .block (.comp .open_ _ _) :: _ => False
  | .block (.para _ _), .heading _ :: _ => False
  | .block (.para _ _), .list _ _ :: _ => False
  | .list _ _, .block (.blank _) :: xs => Ends xs
  | .list _ _, .block (.para _ _) :: _ => False
  | .list _ _, .block (.comp .open_ _ _) :: _ => False
  | .list _ _, .heading _ :: _ => False
  | .list _ _, .list _ _ :: _ => False
  | _, _ => True

def Item.Ok (alnum : Char → Bool) : Item → Prop
  | .block b => b.Ok alnum
  | .heading h => h.Ok
  | .list n ns => Listed.Ok alnum (n :: ns)

/-- A document. -/
def Good (alnum : Char → Bool) : List Item → Prop
  | [] => True
  | x :: xs => x.Ok alnum ∧ Separate x xs ∧ Good alnum xs

/-- Nothing in the text of blocks is markup. -/
def Item.Plain : Item → Prop
  | .block b => b.Plain
  | .heading _ => True
  | .list n ns => Listed.Plain (n :: ns)

/-! ### Identifiers -/

/-- The words of a title: groups of letters and numbers between spaces, hyphens and dots; all other characters are ignored. -/
def words (alnum : Char → Bool) (t : Text) : List Text :=
  ((t.filter (fun c => alnum c || (c = ' ' || c = '-' || c = '.'))).splitOnP (fun c => !alnum c)).filter (fun w => !w.isEmpty)

/-- The identifier for a title: its words, with underscores between them and one before the first. -/
def anchor (alnum : Char → Bool) (t : Text) : Text := '_' :: ['_'].intercalate (words alnum t)

/-- The identifiers for a title, in the order in which they are tried. -/
def candidate (base : Text) : Nat → Text
  | 0 => base
  | n + 1 => base ++ '_' :: (toString (n + 2)).toList

/-- The first one that is not used yet. -/
def free (used : List Text) (base : Text) : Text :=
  (((List.range (used.length + 1)).map (candidate base)).find? (fun id => !used.contains id)).getD []

/-- Every section gets an identifier that is not used before it. -/
def named (alnum : Char → Bool) : List Text → List Item → List (Item × Text)
  | _, [] => []
  | used, .block b :: xs => (.block b, []) :: named alnum used xs
  | used, .list n ns :: xs => (.list n ns, []) :: named alnum used xs
  | used, .heading h :: xs => (.heading h, free used (anchor alnum h.title)) :: named alnum (free used (anchor alnum h.title) :: used) xs

/-! ### The page -/

/-- What belongs to a section of level `n`: all blocks and lists, and the sections of a greater level. -/
def deeper (n : Nat) : Item × Text → Bool
  | (.block _, _) => true
  | (.list _ _, _) => true
  | (.heading h, _) => decide (n < h.level)

/-- A section in HTML. -/
def sectionHtml (lower : Text → Text) (u : Bool) (h : Heading) (id content : Text) : Text :=
  "<div class=\"sect".toList ++ (toString h.level).toList ++ "\">\n<h".toList ++ (toString (h.level + 1)).toList ++ " id=\"".toList ++ lower id ++ "\">".toList ++
    h.title.flatMap (Prose.char u) ++ "</h".toList ++ (toString (h.level + 1)).toList ++ ">\n".toList ++
    (if h.level = 1 then "<div class=\"sectionbody\">\n".toList ++ content ++ "</div>\n".toList else content) ++ "</div>\n".toList

theorem dropWhile_length {α : Type} (p : α → Bool) : ∀ xs : List α, (xs.dropWhile p).length ≤ xs.length := fun xs =>
  (List.dropWhile_sublist p).length_le

theorem takeWhile_length {α : Type} (p : α → Bool) : ∀ xs : List α, (xs.takeWhile p).length ≤ xs.length := fun xs =>
  (List.takeWhile_sublist p).length_le

/-- Blocks, lists and sections in HTML: a section contains what follows its title, up to the next title whose level is not greater. -/
def html (lower : Text → Text) (u : Bool) : List (Item × Text) → Text
  | [] => []
  | (.block b, _) :: xs => b.html u ++ html lower u xs
  | (.list n ns, _) :: xs => Listed.html u (n :: ns) ++ html lower u xs
  | (.heading h, id) :: xs =>
    sectionHtml lower u h id (html lower u (xs.takeWhile (deeper h.level))) ++ html lower u (xs.dropWhile (deeper h.level))
termination_by xs => xs.length
decreasing_by
  · simp
  · simp
  · have := takeWhile_length (deeper h.level) xs; simp only [List.length_cons]; omega
  · have := dropWhile_length (deeper h.level) xs; simp only [List.length_cons]; omega

/-- The whole page, without head. -/
def page (lower : Text → Text) (alnum : Char → Bool) (u : Bool) (xs : List Item) : Text := html lower u (named alnum [] xs)

end Sectioned
end Verif
