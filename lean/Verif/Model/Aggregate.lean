import Verif.Model.Preprocess
/-!
Model of pkg/parser/document_processing_aggregate.go (the construction of the document tree) and of the
table of contents, pkg/types/types.go lines 99-149 and 213-268.
-/
namespace Verif

/-- Ordered forests: a label, its children, its following siblings (Go: `Elements []interface{}` of
pointers). -/
inductive Forest (α : Type) where
  | nil
  | cons (a : α) (kids rest : Forest α)
deriving Repr

namespace Forest
variable {α : Type}

/-- `append(elements, e)` at the end of the siblings (types.go:146-149 `Document.AddElement`,
2577-2580 `Section.AddElement`). -/
def snoc (a : α) : Forest α → Forest α
  | nil => cons a nil nil
  | cons b k r => cons b k (snoc a r)

/-- `AddElement` through a pointer to the node reached by going `d` times to the last sibling and into
its children (`d = 0`: the document itself). -/
def insertAt : Nat → α → Forest α → Forest α
  | 0, a, f => snoc a f
  | _ + 1, _, nil => nil
  | d + 1, a, cons b k nil => cons b (insertAt d a k) nil
  | d + 1, a, cons b k (cons b' k' r) => cons b k (insertAt (d + 1) a (cons b' k' r))

end Forest

/-- An element of a title, as far as identifiers depend on it
(non_alphanumerics_replacement.go:28-62): text, quoted text, link (its displayed location), icon (its alt
text or class), anything else. -/
inductive TElem where
  | str (t : Text)
  | quoted (es : List TElem)
  | link (loc : Option Text)
  | icon (t : Text)
  | other (n : Nat)
deriving Repr

/-- types.go:2440-2445 `Section`, without its children; `id` is the `AttrID` attribute (empty when
absent); `titled` is `Title != nil`. -/
structure Sec where
  level : Int
  title : List TElem
  titled : Bool
  id : Text
deriving Repr

/-- An element of a header (only declarations and resets matter here). -/
inductive HElem where
  | decl (name : String) (value : Val)
  | reset (name : String)
  | other (n : Nat)
deriving DecidableEq, Repr

/-- A top-level element of a fragment, by the cases distinguished in
document_processing_aggregate.go:43-81; `block n refs` is any other block, with the (id, title) pairs it
contributes to the element references (its method `Reference`). -/
inductive Elem where
  | decl (name : String) (value : Val)
  | reset (name : String)
  | front (attrs : AMap Val)
  | header (titled : Bool) (es : List HElem)
  | blank
  | comment
  | sect (s : Sec)
  | block (n : Nat) (refs : List (Text × Nat))
deriving Repr

/-- The level of a section, `none` for other elements. -/
def Elem.level? : Elem → Option Int
  | .sect s => some s.level
  | _ => none

/-- document_processing_aggregate.go:130 `aggregator`: the document (`tree`, the children of the document)
and the stack of open sections (the rest of the slice: Go keeps pointers, each pointing to the last
element of the one before; here their levels). -/
structure Agg where
  tree : Forest Elem
  opened : List Int

/-- document_processing_aggregate.go:33-35. -/
def Agg.init : Agg := ⟨.nil, []⟩

/-- document_processing_aggregate.go:162-173 `indexOfParent`: index in the stack of open sections of
the first one with a level that is not smaller; `none` when there is none. (The document itself is at
index 0 of the Go slice, so the Go result `i-1` is this index, counted with the document.) -/
def indexOfParent (l : Int) : List Int → Option Nat
  | [] => none
  | p :: ps => if p ≥ l then some 0 else (indexOfParent l ps).map (· + 1)

/-- document_processing_aggregate.go:147-149: `*a = (*a)[:idx+1]`. -/
def trimToParent (l : Int) (opened : List Int) : List Int :=
  match indexOfParent l opened with
  | some i => opened.take i
  | none => opened

/-- document_processing_aggregate.go:132-157 `append`, `appendElement`, `appendSection`. -/
def Agg.append (a : Agg) (e : Elem) : Agg :=
  match e with
  | .sect s =>
    ⟨a.tree.insertAt (trimToParent s.level a.opened).length e, trimToParent s.level a.opened ++ [s.level]⟩
  | _ => ⟨a.tree.insertAt a.opened.length e, a.opened⟩

/-- document_processing_aggregate.go:36-94: the loop over all elements, as far as the tree is concerned. -/
def aggregateTree (es : List Elem) : Forest Elem := (es.foldl Agg.append Agg.init).tree

/-! Table of contents -/

/-- types.go:227-233 `ToCSection` without its children. -/
structure Toc where
  id : Text
  level : Int
deriving DecidableEq, Repr

/-- types.go:257-267: starting from the last of the given sections, go down to the last child until there
is no child or the first child has the level of the new section; add there. -/
def tocAddBelow (t : Toc) : Forest Toc → Forest Toc
  | .nil => .nil
  | .cons p .nil .nil => .cons p (.cons t .nil .nil) .nil
  | .cons p (.cons c k r) .nil =>
    if c.level = t.level then .cons p (Forest.snoc t (.cons c k r)) .nil
    else .cons p (tocAddBelow t (.cons c k r)) .nil
  | .cons p ks (.cons p' k' r') => .cons p ks (tocAddBelow t (.cons p' k' r'))

/-- types.go:236-268 `TableOfContents.Add`. -/
def tocAdd (maxDepth : Int) (t : Toc) (f : Forest Toc) : Forest Toc :=
  if t.level > maxDepth then f
  else match f with
    | .nil => .cons t .nil .nil
    | .cons p k r =>
      if t.level = p.level then Forest.snoc t (.cons p k r)
      else tocAddBelow t (.cons p k r)

/-! Preamble -/

/-- An element of the document after preamble insertion. -/
inductive Top where
  | elem (e : Elem)
  | preamble (es : List Elem)
  /-- an unset (nil) entry of the Go slice -/
  | none

/-- types.go:720-730 `HasContent`. -/
def hasContent : List Elem → Bool
  | [] => false
  | .blank :: es => hasContent es
  | .decl _ _ :: es => hasContent es
  | .reset _ :: es => hasContent es
  | _ => true

/-- types.go:111-126 `Header`: title flag and position of the header. -/
def docHeader : List Elem → Option (Bool × Nat)
  | [] => none
  | .header t _ :: _ => some (t, 0)
  | .blank :: es => (docHeader es).map (fun p => (p.1, p.2 + 1))
  | .front _ :: es => (docHeader es).map (fun p => (p.1, p.2 + 1))
  | _ => none

/-- document_processing_aggregate.go:211-221: the elements before the first section, header and front
matter aside; `none` if there is no section. -/
def preambleElems : List Elem → Option (List Elem)
  | [] => none
  | .header _ _ :: es => preambleElems es
  | .front _ :: es => preambleElems es
  | .sect _ :: _ => some []
  | e :: es => (preambleElems es).map (e :: ·)

/-- document_processing_aggregate.go:203-222 `newPreamble`. -/
def newPreamble (es : List Elem) : Option (List Elem) :=
  match docHeader es with
  | some (true, _) => preambleElems es
  | _ => none

/-- Go `copy(dst[i:], src)` on a slice of fixed length. -/
def copyAt (dst : List Top) (i : Nat) (src : List Top) : List Top :=
  dst.take i ++ (src.take (dst.length - i)) ++ dst.drop (i + min src.length (dst.length - i))

/-- document_processing_aggregate.go:175-201 `insertPreamble` (on the top-level elements of the document;
sections with their content count as one element). -/
def insertPreamble (es : List Elem) : List Top :=
  match newPreamble es with
  | none => es.map .elem
  | some pre =>
    if !hasContent pre then es.map .elem
    else
      let elements : List Top := List.replicate (es.length - pre.length + 1) Top.none
      let elements := match es with
        | .front a :: _ => elements.set 0 (.elem (.front a))
        | _ => elements
      match docHeader es with
      | some (_, offset) =>
        let elements := elements.set offset ((es[offset]?.map Top.elem).getD Top.none)
        let elements := elements.set (1 + offset) (.preamble pre)
        copyAt elements (2 + offset) ((es.drop (1 + pre.length + offset)).map .elem)
      | none =>
        let elements := elements.set 0 (.preamble pre)
        copyAt elements 1 ((es.drop pre.length).map .elem)

end Verif
