import Verif.Model.Basic
/-!
Model of footnote collection: pkg/types/types.go lines 2122-2234, the methods `SubstituteFootnotes`
(types.go lines 975, 1149, 1282, 1448, 1712, 1828, 2586) and
pkg/parser/document_processing_collect_footnotes.go lines 25-39.
-/
namespace Verif.Foot

/-- An element of a document at the time footnotes are collected, by the cases that matter. -/
inductive FNode where
  /-- types.go:2126-2133 `Footnote` -/
  | note (ref : Text) (es : List FNode)
  /-- types.go:2153-2157 `FootnoteReference` -/
  | fref (id : Int) (ref : Text) (dup : Bool)
  /-- text and other elements without children -/
  | leaf (n : Nat)
  /-- an inline element with content: quoted text, link… (not `WithFootnotes`) -/
  | inline (es : List FNode)
  | para (es : List FNode)
  | sect (title : List FNode)
  | labeled (term es : List FNode)
  /-- callout, ordered and unordered list elements -/
  | item (es : List FNode)
  /-- types.go:889 `ListElements` -/
  | items (es : List FNode)
  /-- types.go:1015 `ListContinuation` (not `WithFootnotes`) -/
  | cont (e : FNode)
  /-- delimited blocks, tables, … (not `WithFootnotes`) -/
  | block (es : List FNode)

/-- A collected footnote: types.go:2126-2133 with its `ID` set. -/
structure Note where
  id : Nat
  ref : Text
  es : List FNode

/-- types.go:2171-2174 `Footnotes`: sequence counter and notes. -/
structure Notes where
  counter : Nat
  notes : List Note

/-- types.go:2177-2182 `NewFootnotes`. -/
def Notes.empty : Notes := ⟨0, []⟩

/-- types.go:2185-2192 `indexOf`. -/
def indexOf (ref : Text) : List Note → Option Nat
  | [] => none
  | n :: ns => if n.ref = ref then some n.id else indexOf ref ns

/-- types.go:2200-2219 `Reference`. -/
def Notes.reference (n : Notes) (ref : Text) (es : List FNode) : Notes × FNode :=
  if es.isEmpty = false then
    (⟨n.counter + 1, n.notes ++ [⟨n.counter + 1, ref, es⟩]⟩, .fref (n.counter + 1) ref false)
  else match indexOf ref n.notes with
    | some id => (n, .fref id ref true)
    | none => (n, .fref (-1) ref false)

/-- The loops of types.go:1713-1717, 1829-1833, 2587-2591 over inline elements: only direct footnotes are
replaced. -/
def subInline (n : Notes) : List FNode → Notes × List FNode
  | [] => (n, [])
  | .note ref es :: rest =>
    let r := n.reference ref es
    let q := subInline r.1 rest
    (q.1, r.2 :: q.2)
  | e :: rest =>
    let q := subInline n rest
    (q.1, e :: q.2)

mutual
/-- The methods `SubstituteFootnotes`, dispatched on the type of the element; elements that are not
`WithFootnotes` are left alone (document_processing_collect_footnotes.go:34-36). -/
def subst (n : Notes) : FNode → Notes × FNode
  | .para es => let q := subInline n es; (q.1, .para q.2)
  | .sect t => let q := subInline n t; (q.1, .sect q.2)
  | .labeled t es => let q := subInline n t; let r := substAll q.1 es; (r.1, .labeled q.2 r.2)
  | .item es => let r := substAll n es; (r.1, .item r.2)
  | .items es => let r := substAll n es; (r.1, .items r.2)
  | .note ref es => (n, .note ref es)
  | .fref i ref d => (n, .fref i ref d)
  | .leaf k => (n, .leaf k)
  | .inline es => (n, .inline es)
  | .cont e => (n, .cont e)
  | .block es => (n, .block es)

/-- The loop over child elements, types.go:976-983, 1150-1154, 1283-1287, 1449-1453, 1718-1722 and
document_processing_collect_footnotes.go:30-37. -/
def substAll (n : Notes) : List FNode → Notes × List FNode
  | [] => (n, [])
  | e :: es =>
    let q := subst n e
    let r := substAll q.1 es
    (r.1, q.2 :: r.2)
end

/-- document_processing_collect_footnotes.go:8-39 over all fragments of a document, one after the other
(that this is what the concurrent pipeline computes is C10). -/
def collectAll (n : Notes) : List (List FNode) → Notes × List (List FNode)
  | [] => (n, [])
  | f :: fs =>
    let q := substAll n f
    let r := collectAll q.1 fs
    (r.1, q.2 :: r.2)

mutual
/-- pkg/renderer/sgml/elements.go:46-116: whether the renderer accepts the element; a `Footnote` that was not
replaced is an "unsupported type of element" (line 115). Everything else is assumed to be supported. -/
def renderable : FNode → Bool
  | .note _ _ => false
  | .fref _ _ _ => true
  | .leaf _ => true
  | .inline es => renderableAll es
  | .para es => renderableAll es
  | .sect t => renderableAll t
  | .labeled t es => renderableAll t && renderableAll es
  | .item es => renderableAll es
  | .items es => renderableAll es
  | .cont e => renderable e
  | .block es => renderableAll es

/-- pkg/renderer/sgml/elements.go:11-22. -/
def renderableAll : List FNode → Bool
  | [] => true
  | e :: es => renderable e && renderableAll es
end

end Verif.Foot
