import Verif.Spec.Sectioned

/-!
Specification: documents with a header — title, authors and revision — and the pages for them.
-/
namespace Verif
namespace Headed
open Sectioned (Item Heading)
open Grammar (isEol isBlank)

/-- An author: the parts of the name as they are written (with `_` for spaces) and the address; parts that are missing are empty. -/
structure Author where
  first : Text
  middle : Text
  last : Text
  email : Text

/-- A part of a name after a space, if there is one. -/
def more (t : Text) : Text := if t = [] then [] else ' ' :: t

/-- An author on the line of authors. -/
def Author.text (a : Author) : Text :=
  a.first ++ more a.middle ++ more a.last ++ (if a.email = [] then [] else " <".toList ++ a.email ++ ">".toList)

/-- A word of a name. -/
def Word (t : Text) : Prop := ∀ c ∈ t, c ∉ ['<', ';', '\r', '\n', ' ', '\t']

/-- No spaces at the ends. -/
def Trimmed (t : Text) : Prop := (∀ c ∈ t.head?, C48.isSpace c = false) ∧ ∀ c ∈ t.getLast?, C48.isSpace c = false

/-- An author with a first name; one with a middle name has a last name too, which then may consist of several words. -/
structure Author.Ok (a : Author) : Prop where
  named : a.first ≠ []
  first : Word a.first
  middle : Word a.middle
  last : ∀ c ∈ a.last, c ∉ ['<', ';', '\r', '\n']
  order : a.middle ≠ [] → a.last ≠ []
  word : a.middle = [] → Word a.last
  ends : Trimmed (a.last.map (fun c => if c = '_' then ' ' else c))
  email : ∀ c ∈ a.email, c ∉ ['>', '\r', '\n']
  mail : Trimmed a.email

/-- A revision: `v`, `V` or nothing before the number, the number, the date and the remark; those that are missing are empty. -/
structure Revision where
  mark : Text
  number : Text
  date : Text
  remark : Text

/-- The line of the revision. -/
def Revision.text (r : Revision) : Text :=
  (if r.number = [] then r.date else r.mark ++ r.number ++ (if r.date = [] then [] else ", ".toList ++ r.date)) ++
    (if r.remark = [] then [] else ": ".toList ++ r.remark)

/-- A date that could be read as a number of a revision: a digit after a `v`, or a digit first and a comma. -/
def Numeric : Text → Prop
  | c :: d :: t => ((c = 'v' ∨ c = 'V') ∧ d.isDigit = true) ∨ (c.isDigit = true ∧ ',' ∈ c :: d :: t)
  | _ => False

/-- A revision with a number or a date. A number begins with a digit and has at least two characters; without `v` before it, a date follows. -/
structure Revision.Ok (alnum : Char → Bool) (r : Revision) : Prop where
  mark : r.mark = [] ∨ r.mark = ['v'] ∨ r.mark = ['V']
  number : ∀ c ∈ r.number, c ∉ [':', ',', '\r', '\n']
  digit : ∀ c ∈ r.number.head?, c.isDigit = true
  two : r.number ≠ [] → 2 ≤ r.number.length
  ends : Trimmed r.number
  bare : r.mark = [] → r.date ≠ []
  none_ : r.number = [] → r.mark = [] ∧ ¬ Numeric r.date ∧ ∀ c ∈ r.date.head?, alnum c = true
  date : ∀ c ∈ r.date, c ∉ [':', '\r', '\n']
  day : Trimmed r.date
  remark : ∀ c ∈ r.remark, c ∉ ['\r', '\n']
  said : Trimmed r.remark

/-- The header: the spaces before the title, the title, the spaces after it, the authors, and the revision. -/
structure Head where
  gap : Text
  title : Text
  trail : Text
  authors : List Author
  revision : Option Revision

/-- The lines of the header. -/
def Head.lines (h : Head) : List Text :=
  ('=' :: (h.gap ++ (h.title ++ h.trail))) ::
    ((if h.authors = [] then [] else ["; ".toList.intercalate (h.authors.map Author.text)]) ++ h.revision.toList.map Revision.text)

/-- The title is like that of a section; the line of authors begins with a letter or a number; a revision comes after authors. -/
structure Head.Ok (alnum : Char → Bool) (h : Head) : Prop where
  title : Heading.Ok ⟨1, h.gap, h.title, h.trail⟩
  authors : ∀ a ∈ h.authors, a.Ok
  start : ∀ a ∈ h.authors.head?, ∀ c ∈ a.first.head?, alnum c = true
  revision : ∀ r ∈ h.revision, r.Ok alnum ∧ h.authors ≠ []

/-- A document: the header, and a blank line if there is more. -/
structure Document where
  head : Head
  body : List Item

def Document.lines (d : Document) : List Text := d.head.lines ++ Sectioned.lines d.body

def Document.source (d : Document) : Text := unlines d.lines

structure Document.Ok (alnum : Char → Bool) (d : Document) : Prop where
  head : d.head.Ok alnum
  body : Sectioned.Good alnum d.body
  apart : d.body = [] ∨ ∃ w xs, d.body = .block (.blank w) :: xs

/-! ### The page -/

/-- A name as it is shown: underscores stand for spaces. -/
def shown (t : Text) : Text := t.map (fun c => if c = '_' then ' ' else c)

/-- The name of an author. -/
def Author.name (a : Author) : Text := shown a.first ++ more (shown a.middle) ++ more (shown a.last)

/-- The number of an author in identifiers, from the second on. -/
def index (i : Nat) : Text := if i = 0 then [] else (toString (i + 1)).toList

/-- The end of an empty element, in HTML and in XHTML. -/
def close (xhtml : Bool) : Text := if xhtml then "/>".toList else ">".toList

/-- The `i`-th author. -/
def Author.html (xhtml : Bool) (i : Nat) (a : Author) : Text :=
  "<span id=\"author".toList ++ index i ++ "\" class=\"author\">".toList ++ a.name ++ "</span><br".toList ++ close xhtml ++
    (if a.email = [] then [] else "\n<span id=\"email".toList ++ index i ++ "\" class=\"email\"><a href=\"mailto:".toList ++ a.email ++ "\">".toList ++ a.email ++
      "</a></span><br".toList ++ close xhtml)

def Revision.html (xhtml : Bool) (r : Revision) : Text :=
  (if r.number = [] then [] else "\n<span id=\"revnumber\">version ".toList ++ r.number ++ (if r.date = [] then [] else ",".toList) ++ "</span>".toList) ++
  (if r.date = [] then [] else "\n<span id=\"revdate\">".toList ++ r.date ++ "</span>".toList) ++
  (if r.remark = [] then [] else "\n<br".toList ++ close xhtml ++ "<span id=\"revremark\">".toList ++ r.remark ++ "</span>".toList)

/-- The authors, one per line, and the revision. -/
def Head.details (xhtml : Bool) (h : Head) : Text :=
  if h.authors = [] then []
  else "<div class=\"details\">\n".toList ++ "\n".toList.intercalate (h.authors.mapIdx (Author.html xhtml)) ++ h.revision.toList.flatMap (Revision.html xhtml) ++ "\n</div>\n".toList

/-- The header of the page. -/
def Head.html (xhtml u : Bool) (h : Head) : Text :=
  "<div id=\"header\">\n<h1>".toList ++ h.title.flatMap (Prose.char u) ++ "</h1>\n".toList ++ h.details xhtml ++ "</div>\n".toList

/-- Not the title of a section. -/
def before : Item → Bool
  | .heading _ => false
  | _ => true

/-- Not a blank line. -/
def visible : Item → Bool
  | .block (.blank _) => false
  | _ => true

/-- The content of the page: what comes before the first section is its preamble, if there are sections; identifiers as without header. -/
def content (lower : Text → Text) (alnum : Char → Bool) (u : Bool) (xs : List Item) : Text :=
  let pre := Sectioned.page lower alnum u (xs.takeWhile before)
  (if (xs.takeWhile before).any visible && xs.any (fun x => !before x) then
    "<div id=\"preamble\">\n<div class=\"sectionbody\">\n".toList ++ pre ++ "</div>\n</div>\n".toList
  else pre) ++ Sectioned.page lower alnum u (xs.dropWhile before)

/-- What the configuration says about the page. -/
structure Settings where
  xhtml : Bool
  unicode : Bool
  doctype : Text
  description : Text
  css : List Text
  updated : Text
  header : Bool
  footer : Bool

/-- The whole page. -/
def page (lower : Text → Text) (alnum : Char → Bool) (s : Settings) (d : Document) : Text :=
  (if s.xhtml then "<!DOCTYPE html>\n<html xmlns=\"https://www.w3.org/1999/xhtml\" lang=\"en\">\n<head>\n<meta charset=\"UTF-8\"/>\n<meta http-equiv=\"X-UA-Compatible\" content=\"IE=edge\"/>\n<meta name=\"viewport\" content=\"width=device-width, initial-scale=1.0\"/>\n".toList
    else "<!DOCTYPE html>\n<html lang=\"en\">\n<head>\n<meta charset=\"UTF-8\">\n<meta http-equiv=\"X-UA-Compatible\" content=\"IE=edge\">\n<meta name=\"viewport\" content=\"width=device-width, initial-scale=1.0\">\n".toList) ++
  "<meta name=\"generator\" content=\"libasciidoc\"".toList ++ close s.xhtml ++ "\n".toList ++
  (if s.xhtml ∨ s.description = [] then [] else "<meta name=\"description\" content=\"".toList ++ s.description ++ "\">\n".toList) ++
  (if d.head.authors = [] then [] else "<meta name=\"author\" content=\"".toList ++ "; ".toList.intercalate (d.head.authors.map Author.name) ++ "\"".toList ++ close s.xhtml ++ "\n".toList) ++
  s.css.flatMap (fun css => "<link type=\"text/css\" rel=\"stylesheet\" href=\"".toList ++ css ++ "\"".toList ++ close s.xhtml ++ "\n".toList) ++
  "<title>".toList ++ d.head.title ++ "</title>\n</head>\n<body class=\"".toList ++ s.doctype ++ "\">\n".toList ++
  (if s.header then d.head.html s.xhtml s.unicode else []) ++
  "<div id=\"content\">\n".toList ++ content lower alnum s.unicode d.body ++ "</div>\n".toList ++
  (if s.footer then "<div id=\"footer\">\n<div id=\"footer-text\">\n".toList ++
    ((d.head.revision.toList.map Revision.number).filter (· ≠ [])).flatMap (fun n => "Version ".toList ++ n ++ "<br".toList ++ close s.xhtml ++ "\n".toList) ++
    "Last updated ".toList ++ s.updated ++ "\n</div>\n</div>\n".toList else []) ++
  "</body>\n</html>\n".toList

end Headed
end Verif
