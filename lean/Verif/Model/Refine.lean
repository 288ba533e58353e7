import Verif.Model.Substitute
/-!
Model of the refinement stage: pkg/parser/document_processing_refine_fragments.go, all of it except the channels (C10).

The parser is a parameter: what it gives for a text with the entry point `DelimitedBlockElements`. The Go code modifies the elements; here they are
returned. The recursion (through the blocks that the parser finds in the content of a block) is bounded by a number; the theorems hold for every bound.
-/
namespace Verif
namespace Refine
open Walk (Any Fragment)

/-- What is not modelled here. -/
structure Reader where
  /-- lines 149-152: `Parse` with the entry point `DelimitedBlockElements`; `none` is an error. -/
  parse : Text → Option Any
  /-- which elements treated alike in `Any.group` are `ListElements` (types.go:889) -/
  lists : Nat → Bool
  /-- which format of a cell is `a` (types.go:4114) -/
  asciidoc : Nat → Bool

/-- Lines 157-163: nil elements at the end are dropped. -/
def dropNils (es : List Any) : List Any := (es.reverse.dropWhile (fun e => match e with | .nil => true | _ => false)).reverse

/-- Lines 144-168 `reparseElements`; `none` is an error. -/
def reparse (R : Reader) (es : List Any) : Option (List Any) :=
  let r := Walk.serializeLoop 0 es
  match R.parse r.1 with
  | some (.slice es) => some (Walk.restore r.2 (dropNils es))
  | _ => none

/-- Lines 103-123 `reparseTableCell`. -/
def refineCell (R : Reader) : Any → Option Any
  | .cell f es => if R.asciidoc f then (reparse R es).map (Any.cell f) else some (.cell f [.paragraph [] es])
  | e => some e

/-- Lines 78-82, 86-90 and 94-98: the cells of a row. -/
def refineCells (R : Reader) : List Any → Option (List Any)
  | [] => some []
  | c :: cs => match refineCell R c with
    | none => none
    | some c => (refineCells R cs).map (c :: ·)

/-- Lines 84-92: the rows. -/
def refineRows (R : Reader) : List (List Any) → Option (List (List Any))
  | [] => some []
  | r :: rs => match refineCells R r with
    | none => none
    | some r => (refineRows R rs).map (r :: ·)

/-- Lines 77-83 and 93-99: the header and the footer, if there is one. -/
def refineRow (R : Reader) : Option (List Any) → Option (Option (List Any))
  | none => some none
  | some r => (refineCells R r).map some

/-- Lines 76-101 `reparseTable`. -/
def refineTable (R : Reader) (attrs : List (String × Any)) (header : Option (List Any)) (rows : List (List Any)) (footer : Option (List Any)) :
    Option Any :=
  match refineRow R header with
  | none => none
  | some h => match refineRows R rows with
    | none => none
    | some rs => (refineRow R footer).map (Any.table attrs h rs)

/-- Line 127: the kinds of blocks whose content is parsed. -/
def nests : Walk.Kind → Bool
  | .example_ => true
  | .quote => true
  | .sidebar => true
  | .open_ => true
  | _ => false

/-- The result of a computation that may fail, or need more steps. -/
inductive Out (α : Type) where
  | done (a : α)
  | error
  | more

/-- Lines 37-41, 55-59 and 135-139: `refineElement` for all elements of a list, one after the other; an error stops. -/
def refineAll (f : Any → Out Any) : List Any → Out (List Any)
  | [] => .done []
  | e :: es => match f e with
    | .done e => match refineAll f es with
      | .done es => .done (e :: es)
      | .error => .error
      | .more => .more
    | .error => .error
    | .more => .more

/-- Lines 49-74 `refineElement` and 125-142 `reparseDelimitedBlock`. -/
def refine (R : Reader) : Nat → Any → Out Any
  | 0, _ => .more
  | n + 1, e => match e with
    | .group k a es =>
      if R.lists k then match refineAll (refine R n) es with
        | .done es => .done (.group k a es)
        | .error => .error
        | .more => .more
      else .done (.group k a es)
    | .continuation o e => match refine R n e with
      | .done e => .done (.continuation o e)
      | .error => .error
      | .more => .more
    | .table a h rows f => match refineTable R a h rows f with
      | some e => .done e
      | none => .error
    | .block k a es =>
      if nests k then match reparse R es with
        | none => .error
        | some es => match refineAll (refine R n) es with
          | .done es => .done (.block k a es)
          | .error => .error
          | .more => .more
      else .done (.block k a es)
    | e => .done e

/-- Lines 31-47 `refineFragment`. -/
def refineFragment (R : Reader) (n : Nat) : Fragment → Out Fragment
  | .error => .done .error
  | .elements es => match refineAll (refine R n) es with
    | .done es => .done (.elements es)
    | .error => .done .error
    | .more => .more

end Refine
end Verif
