import Verif.Model.Ids
/-!
Model of the numbering of sections: pkg/types/types.go lines 151-198, and of its use in
pkg/renderer/sgml/section.go and table_of_contents.go.
-/
namespace Verif.Numbers

/-- types.go:151 `SectionNumbers`, a Go map (first entry of a key is the current one). -/
abbrev NMap := List (Text × Text)

/-- Go `m[k]`, with presence. -/
def NMap.get : NMap → Text → Option Text
  | [], _ => none
  | (k', v) :: m, k => if k' = k then some v else NMap.get m k

/-- types.go:172, 177 (attributes.go:36, 38): the names that switch numbering on and off. -/
def isNumbering (name : String) : Bool := name == "sectnums" || name == "numbered"

/-- types.go:166-198 `traverseElements`, the elements being the given forest, with the current values of `enabled`,
`prefix`, `counter` and `result`. (It never returns an error; merging the map of a section in `result`, types.go:192-194,
makes its entries the current ones.) -/
def traverse : Forest Top → Bool → Text → Nat → NMap → NMap × Bool
  | .nil, enabled, _, _, res => (res, enabled)
  | .cons (.elem (.decl name _)) _ rest, enabled, pre, counter, res =>
    traverse rest (if isNumbering name then true else enabled) pre counter res
  | .cons (.elem (.reset name)) _ rest, enabled, pre, counter, res =>
    traverse rest (if isNumbering name then false else enabled) pre counter res
  | .cons (.elem (.sect s)) kids rest, enabled, pre, counter, res =>
    let n : Text := if enabled then pre ++ itoa (counter + 1) else []
    let res' : NMap := if enabled then (s.id, n) :: res else res
    let sub := traverse kids enabled (n ++ ['.']) 0 []
    traverse rest sub.2 pre (if enabled then counter + 1 else counter) (sub.1 ++ res')
  | .cons _ _ rest, enabled, pre, counter, res => traverse rest enabled pre counter res

/-- types.go:111-126 `Header`: the elements of the header of the document. -/
def headerElems : Forest Top → Option (List HElem)
  | .cons (.elem (.header _ hs)) _ _ => some hs
  | .cons (.elem .blank) _ rest => headerElems rest
  | .cons (.elem (.front _)) _ rest => headerElems rest
  | _ => none

/-- types.go:166-198 on the elements of a header (no section there): the final value of `enabled`. -/
def headerEnabled : List HElem → Bool → Bool
  | [], enabled => enabled
  | .decl name _ :: hs, enabled => headerEnabled hs (if isNumbering name then true else enabled)
  | .reset name :: hs, enabled => headerEnabled hs (if isNumbering name then false else enabled)
  | .other _ :: hs, enabled => headerEnabled hs enabled

/-- types.go:153-164 `SectionNumbers`. -/
def sectionNumbers (doc : Forest Top) : NMap :=
  let enabled := match headerElems doc with
    | some hs => headerEnabled hs false
    | none => false
  (traverse doc enabled [] 0 []).1

/-- section.go:52-57 and table_of_contents.go:43-45: the number shown in front of the title of a section and in its entry in
the table of contents (empty: none shown). -/
def shownNumber (numbers : NMap) (id : Text) : Text := (numbers.get id).getD []

/-- The children of a section, as elements of the final document. -/
def lift : Forest Elem → Forest Top
  | .nil => .nil
  | .cons a k r => .cons (.elem a) (lift k) (lift r)

/-- The top-level elements. -/
def labels : Forest Elem → List Elem
  | .nil => []
  | .cons a _ r => a :: labels r

/-- The contents of the top-level sections. -/
def sectionKids : Forest Elem → List (Forest Elem)
  | .nil => []
  | .cons (.sect _) k r => k :: sectionKids r
  | .cons _ _ r => sectionKids r

/-- Top-level elements, each section with its content again (Go: sections are pointers). -/
def attach : List Top → List (Forest Elem) → Forest Top
  | [], _ => .nil
  | .elem (.sect s) :: ts, k :: ks => .cons (.elem (.sect s)) (lift k) (attach ts ks)
  | t :: ts, ks => .cons t .nil (attach ts ks)

/-- document_processing_aggregate.go:22, 175-201: the document once the preamble is inserted. -/
def withPreamble (f : Forest Elem) : Forest Top := attach (insertPreamble (labels f)) (sectionKids f)

end Verif.Numbers
