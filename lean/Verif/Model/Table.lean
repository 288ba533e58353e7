import Verif.Model.Basic
/-!
Model of tables: pkg/types/types.go lines 3714-3876 and 3992-4014, the use in
pkg/parser/document_processing_apply_substitutions.go:145-157, and the access to columns in pkg/renderer/sgml/table.go.

Cells are opaque. The attributes of a table are represented by the options `header` and `footer` and by the multipliers of the
column definitions; widths and alignments are left out. `none` is a panic (division by zero, negative length, index out of range).
-/
namespace Verif.Table

/-- A line of a table (parser.peg:2587-2612): a row of cells, or a blank line. -/
inductive Line (α : Type) where
  | row (cells : List α)
  | blank

/-- types.go:3714-3719 `Table`. -/
structure Table (α : Type) where
  header : Option (List α)
  footer : Option (List α)
  rows : List (List α)

/-- types.go:3758-3763: all cells of the rows; blank lines are ignored. -/
def cellsOf {α : Type} : List (Line α) → List α
  | [] => []
  | .row cs :: ls => cs ++ cellsOf ls
  | .blank :: ls => cellsOf ls

/-- types.go:3766-3773: the loop, for a positive length; with at most `fuel` steps (at least one cell is taken in each). -/
def dispatch {α : Type} (n : Nat) : Nat → List α → List (List α)
  | 0, _ => []
  | fuel + 1, cells => match cells with
    | [] => []
    | c :: cs => (c :: cs).take n :: dispatch n fuel ((c :: cs).drop n)

/-- types.go:3756-3775 `organizeTableCells`: integer division by zero (line 3765) and slices of negative length (line 3770) panic. -/
def organize {α : Type} (cells : List α) (rowLength : Int) : Option (List (List α)) :=
  if rowLength = 0 then none
  else if rowLength < 0 then (if cells.isEmpty then some [] else none)
  else some (dispatch rowLength.toNat cells.length cells)

/-- types.go:3745-3751: the length of the first row, or 1. -/
def firstLength {α : Type} : List (Line α) → Nat
  | [] => 1
  | .row cs :: _ => cs.length
  | .blank :: ls => firstLength ls

/-- types.go:3736-3744: a first row followed by a blank line and something else. -/
def explicitHeader {α : Type} : List (Line α) → Option (List α × List (Line α))
  | .row h :: .blank :: l :: ls => some (h, l :: ls)
  | _ => none

/-- types.go:3721-3754 `NewTable` and `scanTableElements`. -/
def newTable {α : Type} (lines : List (Line α)) : Option (Table α) :=
  match explicitHeader lines with
  | some (h, ls) => (organize (cellsOf ls) h.length).map (fun rows => ⟨some h, none, rows⟩)
  | none => match lines with
    | [] => some ⟨none, none, []⟩
    | _ => (organize (cellsOf lines) (firstLength lines)).map (fun rows => ⟨none, none, rows⟩)

/-- types.go:3825-3829: the header option. -/
def takeHeader {α : Type} (opt : Bool) (t : Table α) : Table α :=
  match t.header, t.rows with
  | none, r :: rs => if opt then { t with header := some r, rows := rs } else t
  | _, _ => t

/-- types.go:3830-3834: the footer option. -/
def takeFooter {α : Type} (opt : Bool) (t : Table α) : Table α :=
  match t.footer, t.rows.getLast? with
  | none, some r => if opt then { t with footer := some r, rows := t.rows.dropLast } else t
  | _, _ => t

/-- types.go:3824-3835 `reorganizeRows`. -/
def reorganize {α : Type} (hdr ftr : Bool) (t : Table α) : Table α := takeFooter ftr (takeHeader hdr t)

/-- types.go:3860-3876 `rows`: the cells of all rows. -/
def allCells {α : Type} (t : Table α) : List α := t.header.getD [] ++ t.rows.flatten ++ t.footer.getD []

/-- types.go:3838-3843: the number of columns. -/
def size (cols : List Int) : Int := cols.foldl (fun a m => a + m) 0

/-- types.go:3849-3853: the first row becomes the header; index out of range if there is none. -/
def restoreHeader {α : Type} (want : Bool) (t : Table α) : Option (Table α) :=
  if want then match t.rows with
    | [] => none
    | r :: rs => some { t with header := some r, rows := rs }
  else some t

/-- types.go:3854-3857: the last row becomes the footer; index out of range if there is none. -/
def restoreFooter {α : Type} (want : Bool) (t : Table α) : Option (Table α) :=
  if want then match t.rows.getLast? with
    | none => none
    | some r => some { t with footer := some r, rows := t.rows.dropLast }
  else some t

/-- types.go:3837-3858 `SetColumnDefinitions`. -/
def setColumns {α : Type} (hdr ftr : Bool) (cols : List Int) (t : Table α) : Option (Table α) :=
  match organize (allCells t) (size cols) with
  | none => none
  | some rows =>
    match restoreHeader (t.header.isSome || hdr) { t with rows := rows } with
    | none => none
    | some t' => restoreFooter (t.footer.isSome || ftr) t'

/-- A table of the document: created by the parser (types.go:3721), then given its attributes (types.go:3817-3820), then its
columns (document_processing_apply_substitutions.go:155-157) if there is a `cols` attribute. -/
def process {α : Type} (hdr ftr : Bool) (cols : Option (List Int)) (lines : List (Line α)) : Option (Table α) :=
  match newTable lines with
  | none => none
  | some t => match cols with
    | none => some (reorganize hdr ftr t)
    | some cols => setColumns hdr ftr cols (reorganize hdr ftr t)

/-- types.go:3998-4002: a column definition is repeated as often as its multiplier says. -/
def expand (cols : List Int) : Nat := (cols.map Int.toNat).sum

/-- types.go:3992-4017 `Columns`: the number of columns. -/
def columns {α : Type} (cols : Option (List Int)) (t : Table α) : Nat :=
  let n := match cols with
    | some cols => expand cols
    | none => 0
  match t.rows with
  | [] => n
  | r :: _ => if r.length > n then n + (r.length - n) else n

/-- pkg/renderer/sgml/table.go:129-130, 172-173: `cols[col%len(cols)]` for every cell of a header or footer. -/
def edgeOK {α : Type} (n : Nat) : Option (List α) → Bool
  | none => true
  | some cells => cells.isEmpty || n != 0

/-- pkg/renderer/sgml/table.go:236-238: `cols[i]` for every cell of a row. -/
def rowOK {α : Type} (n : Nat) (cells : List α) : Bool := decide (cells.length ≤ n)

/-- pkg/renderer/sgml/table.go:15-117 `renderTable`, as far as columns are accessed: whether it does not panic. -/
def renders {α : Type} (cols : Option (List Int)) (t : Table α) : Bool :=
  edgeOK (columns cols t) t.header && edgeOK (columns cols t) t.footer && t.rows.all (rowOK (columns cols t))

end Verif.Table
