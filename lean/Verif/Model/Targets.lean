import Verif.Model.Elements
import Verif.Model.Ids
/-!
Model of the collection of the elements that can be referred to: the methods `Reference` of pkg/types/types.go, and their use in
document_processing_aggregate.go.
-/
namespace Verif.Target
open Rend (AV El Attrs)

/-- The elements as far as the method `Reference` distinguishes them. An element without such a method is `other`; a header or footer of a table
that is nil is one without cells. -/
inductive Node where
  /-- types.go:1816-1822 -/
  | paragraph (attrs : List (String × AV))
  /-- types.go:2050-2056 -/
  | image (attrs : List (String × AV))
  /-- types.go:2399-2411 -/
  | block (attrs : List (String × AV)) (els : List Node)
  /-- types.go:868-880; its elements are `item` or `labeled` -/
  | list (attrs : List (String × AV)) (items : List Node)
  /-- types.go:1076-1088, 1197-1209, 1339-1351: elements of callout, ordered and unordered lists -/
  | item (attrs : List (String × AV)) (els : List Node)
  /-- types.go:1616-1636 -/
  | labeled (attrs : List (String × AV)) (term : List El) (els : List Node)
  /-- types.go:3879-3913; a row is a list of cells, a cell is its elements -/
  | table (attrs : List (String × AV)) (header : List (List Node)) (rows : List (List (List Node))) (footer : List (List Node))
  | other

/-- types.go:41 `ElementReferences`, a map, as the list of its assignments, latest first. -/
abbrev Named := List (Text × AV)

/-- `attributes[AttrTitle] != nil`: the value, unless it is nil or there is none. -/
def titleOf (a : Attrs) : Option AV :=
  match a.get "title" with
  | some .nil => none
  | x => x

/-- The first five lines of the methods, e.g. types.go:1817-1821; `sprint` is `fmt.Sprintf("%v", …)`. -/
def own (sprint : AV → Text) (a : Attrs) (refs : Named) : Named :=
  let id := Rend.getStrD sprint a "id" []
  match titleOf a with
  | some t => if id ≠ [] then (id, t) :: refs else refs
  | none => refs

/-- types.go:2050-2056: for images, the title is read as a string. -/
def ownImage (sprint : AV → Text) (a : Attrs) (refs : Named) : Named :=
  let id := Rend.getStrD sprint a "id" []
  let t := Rend.getStrD sprint a "title" []
  if id ≠ [] ∧ t ≠ [] then (id, .str t) :: refs else refs

/-- types.go:1622-1629: the anchor at the beginning of a term. -/
def ownTerm (sprint : AV → Text) (term : List El) (refs : Named) : Named :=
  match term with
  | .link _ a :: l => let id := Rend.getStrD sprint a "id" []; if id ≠ [] then (id, .els l) :: refs else refs
  | _ => refs

mutual
/-- The methods `Reference` (see `Node`). -/
def reference (sprint : AV → Text) : Node → Named → Named
  | .paragraph a, refs => own sprint a refs
  | .image a, refs => ownImage sprint a refs
  | .block a es, refs => all sprint es (own sprint a refs)
  | .list a is, refs => all sprint is (own sprint a refs)
  | .item a es, refs => all sprint es (own sprint a refs)
  | .labeled a t es, refs => all sprint es (ownTerm sprint t (own sprint a refs))
  | .table a h rs f, refs => cells sprint f (rows sprint rs (cells sprint h (own sprint a refs)))
  | .other, refs => refs
/-- types.go:874-879 and alike. -/
def all (sprint : AV → Text) : List Node → Named → Named
  | [], refs => refs
  | e :: l, refs => all sprint l (reference sprint e refs)
/-- types.go:3887-3893 and 3904-3911: the cells of a row. -/
def cells (sprint : AV → Text) : List (List Node) → Named → Named
  | [], refs => refs
  | c :: l, refs => cells sprint l (all sprint c refs)
/-- types.go:3895-3902: the rows of a table. -/
def rows (sprint : AV → Text) : List (List (List Node)) → Named → Named
  | [], refs => refs
  | r :: l, refs => rows sprint l (cells sprint r refs)
end

/-- What the aggregation meets: a section, with the identifier that is given to it or that comes from its title (types.go:2545-2563) and its title
(which may be nil), or another element. -/
inductive Entry where
  | sect (base : Text) (title : Option (List El))
  | node (e : Node)

/-- types.go:2523-2542 `ResolveID` (as in Model/Ids). -/
def resolve (refs : Named) (base : Text) : Text :=
  (resolveLoop (refs.map fun p => (p.1, RefTitle.block 0)) base (refs.length + 1) 1).getD []

/-- types.go:2567-2572 -/
def section' (id : Text) (title : Option (List El)) (refs : Named) : Named :=
  match title with
  | some t => if id ≠ [] then (id, .els t) :: refs else refs
  | none => refs

/-- document_processing_aggregate.go:44-92, as far as references are concerned: what is recorded, and the elements, the sections with their
identifiers. -/
def collect (sprint : AV → Text) : List Entry → Named → List Entry × Named
  | [], refs => ([], refs)
  | .sect base title :: l, refs =>
    let id := resolve refs base
    let r := collect sprint l (section' id title refs)
    (.sect id title :: r.1, r.2)
  | .node e :: l, refs =>
    let r := collect sprint l (reference sprint e refs)
    (.node e :: r.1, r.2)

end Verif.Target
