import Verif.Model.Render
/-!
How tables are shown (C77): row by row, and in each row cell by cell, each cell as its column says.
-/
namespace Verif.Tables
open Rend (AV El Attrs Col)

/-- What a cell of the header or the footer says, and what it is shown as. -/
abbrev Piece := List El × Text

/-- What is in a cell of a row: paragraphs and, in columns of style `a`, other blocks; with what it is shown as. -/
inductive Item where
  | para (says : List El) (shown : Text)
  | block (says : El) (shown : Text)

/-- A table: the header and the footer, if there are; the rows. A cell of a row has any number of items. -/
structure Grid where
  header : Option (List Piece)
  rows : List (List (List Item))
  footer : Option (List Piece)

/-- What the parser makes of it. -/
def Item.element : Item → El
  | .para els _ => .paragraph [] els
  | .block e _ => e

/-- What the parser makes of a cell of a row. -/
def cellEls (cell : List Item) : List El := cell.map Item.element

/-- What the parser makes of a cell of the header or the footer. -/
def headEls (cell : Piece) : List El := [.paragraph [] cell.1]

/-- The class of an alignment: `<`, `^` and `>`. -/
def across (v : Text) : Text :=
  if v = ['<'] then "halign-left".toList else if v = ['^'] then "halign-center".toList else if v = ['>'] then "halign-right".toList else v

def down (v : Text) : Text :=
  if v = ['<'] then "valign-top".toList else if v = ['^'] then "valign-middle".toList else if v = ['>'] then "valign-bottom".toList else v

/-- A cell of the table, between `<td …>` and `</td>`, or `th` instead of `td`. -/
def boxed (tag : String) (col : Col) (content : Text) : Text :=
  "<".toList ++ tag.toList ++ " class=\"tableblock ".toList ++ across col.halign ++ " ".toList ++ down col.valign ++ "\">".toList ++ content ++ "</".toList ++ tag.toList ++ ">\n".toList

def para (t : Text) : Text := "<p class=\"tableblock\">".toList ++ t ++ "</p>".toList

/-- The text without the line feed at its end, if there is one. -/
def trimmed (t : Text) : Text := if t.getLast? = some '\n' then t.dropLast else t

def item : Item → Text
  | .para _ t => para t
  | .block _ t => "<div class=\"content\">".toList ++ trimmed t ++ "</div>".toList

/-- A cell of a row; columns of style `h` have cells like those of the header. -/
def cell (c : List Item × Col) : Text := boxed (if c.2.style = ['h'] then "th" else "td") c.2 (c.1.flatMap item)

def headCell (c : Piece × Col) : Text := boxed "th" c.2 c.1.2

def footCell (c : Piece × Col) : Text := boxed "td" c.2 (para c.1.2)

/-- A row: its cells, each with its column. -/
def row (cols : List Col) (cells : List (List Item)) : Text := "<tr>\n".toList ++ (cells.zip cols).flatMap cell ++ "</tr>\n".toList

/-- The header or the footer. -/
def edge (tag : String) (cell : Piece × Col → Text) (cols : List Col) : Option (List Piece) → Text
  | none => []
  | some [] => []
  | some cells => "<".toList ++ tag.toList ++ ">\n<tr>\n".toList ++ (cells.zip cols).flatMap cell ++ "</tr>\n</".toList ++ tag.toList ++ ">\n".toList

/-- A column, with its width if it has one; `close` is `>` or `/>`. -/
def column (close : String) (width : Text) : Text :=
  "<col".toList ++ (if width = [] then [] else " style=\"width: ".toList ++ width ++ "%;\"".toList) ++ close.toList ++ "\n".toList

/-- A class, if there is one. -/
def maybe (before : String) (v : Text) : Text := if v = [] then [] else before.toList ++ v

/-- The width of the whole table, in percent; `0` if nothing is said. -/
def breadth (n : Int) : Text := if n = 0 ∨ 100 ≤ n then [] else " style=\"width: ".toList ++ (toString n).toList ++ "%;\"".toList

/-- The class that says how wide the table is. -/
def fitting (auto : Bool) (n : Int) : Text := if 100 ≤ n then "stretch".toList else if 0 < n then [] else if auto then "fit-content".toList else "stretch".toList

/-- Words, with a space between them. -/
def spaced : List Text → Text
  | [] => []
  | [w] => w
  | w :: l => w ++ ' ' :: spaced l

/-- The caption and the title, if there is a title. -/
def titled (cap title : Text) : Text := if title = [] then [] else "<caption class=\"title\">".toList ++ cap ++ title ++ "</caption>\n".toList

/-- What is written for a table. -/
def html (close : String) (id frame grid stripes fit float roles width cap title : Text) (widths : List Text) (cols : List Col) (g : Grid) : Text :=
  "<table ".toList ++ (if id = [] then [] else "id=\"".toList ++ id ++ "\" ".toList) ++ "class=\"tableblock frame-".toList ++ frame ++ " grid-".toList ++ grid ++
  maybe " stripes-" stripes ++ maybe " " fit ++ maybe " " float ++ maybe " " roles ++ "\"".toList ++ width ++ ">\n".toList ++ titled cap title ++ "<colgroup>\n".toList ++ widths.flatMap (column close) ++ "</colgroup>\n".toList ++
  edge "thead" headCell cols g.header ++
  ("<tbody>\n".toList ++ g.rows.flatMap (row cols) ++ "</tbody>\n".toList) ++
  edge "tfoot" footCell cols g.footer ++ "</table>\n".toList

/-- An attribute that is text; if it is not given, the default. -/
def value (a : Attrs) (k : String) (d : Text) : Text :=
  match AMap.get a k with
  | some (.str t) => t
  | _ => d

/-- A column of which nothing is said. -/
def plain : Col := ⟨1, "<".toList, "<".toList, 1, [], false⟩

/-- The columns: those that are asked for, each as often as its multiplier says; then as many as the other cells of the first row need. -/
def columns (asked : List Col) (g : Grid) : List Col :=
  let l := asked.flatMap fun d => List.replicate d.multiplier d
  l ++ List.replicate ((g.rows.headD []).length - l.length) plain

/-- These are the title, the roles and the columns that are asked for; the other attributes are text. -/
structure Simple (a : Attrs) (title : Option Text) (roles : List Text) (asked : List Col) : Prop where
  title : AMap.get a "title" = title.map AV.str
  roles : (roles = [] ∧ AMap.get a "roles" = none) ∨ AMap.get a "roles" = some (.roles (roles.map AV.str))
  text : ∀ k ∈ ["frame", "grid", "float", "stripes", "width"], ∀ v, AMap.get a k = some v → ∃ t, v = .str t
  cols : (asked = [] ∧ AMap.get a "cols" = none) ∨ AMap.get a "cols" = some (.cols (asked.map some))

/-- The identifier, as it is written. -/
def ident (a : Attrs) : Text := Rend.htmlEscape (value a "id" [])

/-- The text without the sign `%` at its end. -/
def percent (t : Text) : Text := if t.getLast? = some '%' then t.dropLast else t

/-- What is written for a table with these attributes; `widths` are those of C75, `number` is the number that is written, 0 if there is none;
`cap` is the caption before the title (C30). -/
def page (close : String) (number : Text → Int) (widths : Bool → List Col → List Text) (a : Attrs) (cap : Text) (title : Option Text) (roles : List Text) (asked : List Col) (g : Grid) : Text :=
  let auto := Rend.hasOption a "autowidth"
  let cols := columns asked g
  let n := number (percent (value a "width" []))
  html close (ident a) (value a "frame" "all".toList) (value a "grid" "all".toList) (value a "stripes" [])
    (fitting auto n) (value a "float" []) (spaced roles) (breadth n) cap (title.getD []) (widths auto cols) cols g

/-- The parts of the table that are shown as cells. -/
structure Fits (cols : List Col) (g : Grid) : Prop where
  some : g.rows ≠ []
  rows : ∀ r ∈ g.rows, r.length ≤ cols.length
  header : ∀ r, g.header = Option.some r → r.length ≤ cols.length
  footer : ∀ r, g.footer = Option.some r → r.length ≤ cols.length

end Verif.Tables
