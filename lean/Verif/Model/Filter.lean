import Verif.Model.Basic
/-!
Model of pkg/parser/document_processing_filter_elements.go.

Simplification: the list of matchers is fixed, since `filterOut` passes `allMatchers` (line 19, 94) and the call for
delimited blocks (line 56) passes the same three in another order. What an element is made of besides its elements is a
number.
-/
namespace Verif.Filter

/-- An element, by the cases `doFilterOut` distinguishes. -/
inductive FEl where
  /-- types.go:2664 `BlankLine` -/
  | blank
  /-- types.go:2677 `SinglelineComment` -/
  | comment (n : Nat)
  /-- an element without elements of its own -/
  | leaf (n : Nat)
  /-- types.go:2299 `DelimitedBlock`; `c`: whether its kind is `Comment` -/
  | block (c : Bool) (n : Nat) (es : List FEl)
  /-- types.go:792 `List` and its list elements -/
  | list (n : Nat) (items : List FEl)
  /-- any other `WithElements` (types.go:32-36): paragraphs, sections, quoted text, list elements, table rows, cells… -/
  | parent (n : Nat) (es : List FEl)
  /-- types.go:3705 `Table`: its elements are the rows, without the header and the footer (types.go:3780-3786) -/
  | table (n : Nat) (header rows footer : List FEl)
  /-- types.go:283 `DocumentHeader`: with a title, with attributes -/
  | header (titled attributed : Bool) (es : List FEl)

/-- document_processing_filter_elements.go:94-116: whether one of the matchers matches. -/
def isNoise : FEl → Bool
  | .blank => true
  | .comment _ => true
  | .block c _ _ => c
  | _ => false

/-- types.go:369-373 `IsEmpty` (only document headers are `Filterable`). -/
def isEmptyHeader : FEl → Bool
  | .header titled attributed es => !titled && !attributed && es.isEmpty
  | _ => false

mutual
/-- document_processing_filter_elements.go:53-78: processing the content of an element. -/
def inside : FEl → FEl
  | .blank => .blank
  | .comment n => .comment n
  | .leaf n => .leaf n
  | .block c n es => .block c n (filterOut es)
  | .list n items => .list n (insideAll items)
  | .parent n es => .parent n (filterOut es)
  | .table n h rows f => .table n h (filterOut rows) f
  | .header t a es => .header t a (filterOut es)

/-- document_processing_filter_elements.go:62-70: the elements of a list; they are not removed themselves. -/
def insideAll : List FEl → List FEl
  | [] => []
  | e :: es => inside e :: insideAll es

/-- document_processing_filter_elements.go:41-92 `doFilterOut`. -/
def filterOut : List FEl → List FEl
  | [] => []
  | e :: es =>
    if isNoise e then filterOut es
    else if isEmptyHeader (inside e) then filterOut es
    else inside e :: filterOut es
end

end Verif.Filter
