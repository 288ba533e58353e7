import Verif.Model.Preprocess
import Verif.Model.Ids
import Verif.Model.Merge
/-!
Model of the substitution of attribute references and counters:
pkg/parser/document_processing_apply_substitutions.go lines 103-124, 355-405, 453-602.

Simplifications: the second phase of parsing (line 514, and 606-652) is a parameter `reparse`, absent if there are no
substitutions left; the attributes and the locations of inline elements (lines 481-483, 492-506) are left out; attribute values
that are slices or author names are represented by a number, `code` maps slices to numbers and `render` numbers to the rendered text
(lines 557-561, errors left out).
-/
namespace Verif.AttrRefs

/-- The value of a counter: types.go:687-692, an int or a character. -/
inductive CVal where
  | int (n : Nat)
  | rune (code : Nat)
deriving DecidableEq, Repr

/-- An inline element. -/
inductive REl where
  /-- types.go:661 `AttributeReference` -/
  | ref (name : String)
  /-- types.go:687 `CounterSubstitution` -/
  | counter (name : String) (value : Option CVal) (hidden : Bool)
  /-- types.go:1843 `StringElement` -/
  | str (t : Text)
  /-- a bare attribute value that is not a string, in place of an element -/
  | val (v : Val)
  /-- another element without elements of its own -/
  | leaf (n : Nat)
  /-- an inline element with elements (`WithElements`, e.g. quoted text) -/
  | parent (n : Nat) (es : List REl)

/-- `string(r)` for a rune. -/
def runeText (code : Nat) : Text := if code.isValidChar then [Char.ofNat code] else [Char.ofNat 0xFFFD]

/-- `counter++` (lines 581, 591). -/
def CVal.succ : CVal → CVal
  | .int n => .int (n + 1)
  | .rune c => .rune (c + 1)

/-- `strconv.Itoa(counter)` or `string(counter)` (lines 588, 598). -/
def CVal.text : CVal → Text
  | .int n => itoa n
  | .rune c => runeText c

/-- document_processing_apply_substitutions.go:567-602 `valueForCounter`. -/
def valueForCounter (cs : AMap CVal) (name : String) (value : Option CVal) (hidden : Bool) : AMap CVal × Text :=
  let counter := (AMap.get cs name).getD (.int 0)
  let v := match value with
    | some v => v
    | none => counter.succ
  (AMap.set cs name v, if hidden then [] else v.text)

/-- document_processing_apply_substitutions.go:550-565 `valueForAttributeRef`: the value and whether the attribute is set. -/
def valueForRef (render : Nat → Option Text) (get : String → Option Val) (name : String) : Val × Bool :=
  match get name with
  | none => (.str ("{".toList ++ name.toList ++ "}".toList), false)
  | some (.other 0) => (.other 0, true)
  | some (.other (i + 1)) => match render (i + 1) with
    | some t => (.str t, true)
    | none => (.other (i + 1), true)
  | some v => (v, true)

/-- document_processing_apply_substitutions.go:462-469: the element for a value. -/
def elementFor : Val → REl
  | .str t => .str t
  | v => .val v

/-- document_processing_apply_substitutions.go:509-516: the second phase. -/
def finish (reparse : Option (List REl → List REl)) (replaced : Bool) (es : List REl) : List REl :=
  match reparse with
  | some f => if replaced then f es else es
  | none => es

/-- The result of the loop: elements, counters, and whether a reference was replaced (lines 454, 470). -/
structure LoopResult where
  els : List REl
  counters : AMap CVal
  replaced : Bool

mutual
/-- document_processing_apply_substitutions.go:455-508: one element. -/
def replaceOne (render : Nat → Option Text) (get : String → Option Val) (reparse : Option (List REl → List REl)) (cs : AMap CVal) :
    REl → REl × AMap CVal × Bool
  | .ref name => let r := valueForRef render get name; (elementFor r.1, cs, r.2)
  | .counter name v h => let r := valueForCounter cs name v h; (.str r.2, r.1, false)
  | .parent n es => let r := replaceLoop render get reparse cs es; (.parent n (finish reparse r.replaced r.els), r.counters, false)
  | .str t => (.str t, cs, false)
  | .val v => (.val v, cs, false)
  | .leaf n => (.leaf n, cs, false)

/-- document_processing_apply_substitutions.go:454-508: the loop. -/
def replaceLoop (render : Nat → Option Text) (get : String → Option Val) (reparse : Option (List REl → List REl)) (cs : AMap CVal) :
    List REl → LoopResult
  | [] => ⟨[], cs, false⟩
  | e :: es =>
    let q := replaceOne render get reparse cs e
    let r := replaceLoop render get reparse q.2.1 es
    ⟨q.1 :: r.els, r.counters, q.2.2 || r.replaced⟩
end

/-- document_processing_apply_substitutions.go:453-517 `replaceAttributeRefsInElementsAndReparse`. -/
def replaceRefs (render : Nat → Option Text) (get : String → Option Val) (reparse : Option (List REl → List REl)) (cs : AMap CVal)
    (es : List REl) : List REl × AMap CVal :=
  let r := replaceLoop render get reparse cs es
  (finish reparse r.replaced r.els, r.counters)

/-- A piece of the value of an attribute declaration (parser.peg:341-356). -/
inductive Piece where
  | text (t : Text)
  | ref (name : String)
  /-- a counter, special character or passthrough -/
  | other (n : Nat)

/-- document_processing_apply_substitutions.go:382-399: the pieces with the references replaced. -/
def pieceValue (render : Nat → Option Text) (get : String → Option Val) : Piece → Merge.MEl
  | .text t => .raw t
  | .ref name => match (valueForRef render get name).1 with
    | .str t => .raw t
    | .other 0 => .nil
    | .int _ => .other 0
    | .flt _ => .other 0
    | .other _ => .other 0
  | .other n => .other n

/-- document_processing_apply_substitutions.go:379-405 `replaceAttributeRefsInSlicedValue`. -/
def slicedValue (render : Nat → Option Text) (get : String → Option Val) (ps : List Piece) : Merge.Reduced :=
  Merge.reduce (fun t => t) (ps.map (pieceValue render get))

/-- The value of an attribute after a declaration: nil is `.other 0`, a slice is represented by its code. -/
def valOf (code : List Merge.MEl → Nat) : Merge.Reduced → Val
  | .nil => .other 0
  | .str t => .str t
  | .els es => .other (code es + 1)

/-- An element of a document, as far as attributes are concerned. -/
inductive DEl where
  /-- types.go:620 `AttributeDeclaration` -/
  | declare (name : String) (value : List Piece)
  /-- types.go:643 `AttributeReset` -/
  | reset (name : String)
  /-- the content of a paragraph (or of another element with inline content) -/
  | content (es : List REl)

/-- The state while substituting: attributes and counters (context.go:12-19). -/
structure SState where
  attrs : CtxAttrs
  counters : AMap CVal

/-- document_processing_apply_substitutions.go:58-86, 103-124: one element of a document; the content after substitution. -/
def substEl (code : List Merge.MEl → Nat) (render : Nat → Option Text) (reparse : Option (List REl → List REl)) (st : SState) : DEl → SState × List REl
  | .declare name ps => ({ st with attrs := st.attrs.set name (valOf code (slicedValue render st.attrs.get ps)) }, [])
  | .reset name => ({ st with attrs := st.attrs.unset name }, [])
  | .content es => let r := replaceRefs render st.attrs.get reparse st.counters es; ({ st with counters := r.2 }, r.1)

/-- document_processing_apply_substitutions.go:49-56 over the whole document (fragments in order, C10). -/
def substDoc (code : List Merge.MEl → Nat) (render : Nat → Option Text) (reparse : Option (List REl → List REl)) (st : SState) : List DEl → SState × List (List REl)
  | [] => (st, [])
  | e :: es =>
    let q := substEl code render reparse st e
    let r := substDoc code render reparse q.1 es
    (r.1, q.2 :: r.2)

/-- pkg/renderer/sgml/elements.go:46-116: whether the renderer accepts the elements; values that are not elements are an
"unsupported type of element" (line 115). -/
def renderable : REl → Bool
  | .val _ => false
  | .ref _ => false
  | .counter _ _ _ => false
  | _ => true

/-- parser.peg:658-664, types.go:697-701: the counter for `{counter:name:start}` (`hidden` false) and `{counter2:name:start}`;
the start value is not passed on by the latter. -/
def parseCounter (name : String) (hidden : Bool) (start : Option CVal) : REl :=
  if hidden then .counter name none true else .counter name start false

end Verif.AttrRefs
