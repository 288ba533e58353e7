import Verif.Model.Ids
/-!
Model of the placeholders used when content is parsed a second time:
pkg/parser/document_processing_apply_substitutions.go lines 606-687 and 727-769.

The parser is represented by the rule for placeholders (parser.peg:1196-1200) at every position of the text, and by an arbitrary
grouping of the result (quoted text and other elements with elements).
-/
namespace Verif.Placeholders

/-- parser.peg:1196: the delimiter of placeholders, U+FFFD. -/
def delim : Char := Char.ofNat 0xFFFD

/-- What is serialized. -/
inductive Item where
  /-- a `RawLine`, string, `StringElement` or `SpecialCharacter`: its text -/
  | text (t : Text)
  /-- any other element -/
  | elem (n : Nat)

/-- document_processing_apply_substitutions.go:731-734 `placeholders`. -/
structure Store where
  seq : Nat
  elements : List (Text × Nat)

/-- The entry of the map `elements` for a reference. -/
def Store.get (s : Store) (ref : Text) : Option Nat := (s.elements.find? (fun p => p.1 = ref)).map Prod.snd

/-- document_processing_apply_substitutions.go:743-750 `add`: the new placeholders and the reference. -/
def Store.add (s : Store) (n : Nat) : Store × Text :=
  (⟨s.seq + 1, (itoa (s.seq + 1), n) :: s.elements.filter (fun p => p.1 ≠ itoa (s.seq + 1))⟩, itoa (s.seq + 1))

/-- types.go:3705-3707 `String`. -/
def placeholderText (ref : Text) : Text := delim :: (ref ++ [delim])

/-- document_processing_apply_substitutions.go:662-681: the loop of `serialize`. -/
def serializeLoop (s : Store) : List Item → Text × Store
  | [] => ([], s)
  | .text t :: es => let r := serializeLoop s es; (t ++ r.1, r.2)
  | .elem n :: es => let r := serializeLoop (s.add n).1 es; (placeholderText (s.add n).2 ++ r.1, r.2)

/-- document_processing_apply_substitutions.go:654-687 `serialize`. -/
def serialize (es : List Item) : Text × Store := serializeLoop ⟨0, []⟩ es

/-- A parsed element. -/
inductive Node where
  | ch (c : Char)
  /-- types.go:3694 `ElementPlaceHolder` -/
  | placeholder (ref : Text)
  /-- an element with elements (`WithElements`) -/
  | group (k : Nat) (ns : List Node)
  /-- an element from before -/
  | elem (n : Nat)
  /-- a nil value instead of an element -/
  | missing

/-- `[0-9]` -/
def digit (c : Char) : Bool := decide ('0' ≤ c) && decide (c ≤ '9')

/-- parser.peg:1198 `ElementPlaceHolder`, after the first delimiter: the reference and the rest. -/
def readRef (t : Text) : Option (Text × Text) :=
  let ds := t.takeWhile digit
  match ds, t.dropWhile digit with
  | _ :: _, c :: rest => if c = delim then some (ds, rest) else none
  | _, _ => none

/-- parser.peg:2363: placeholders and other characters; with at most `fuel` steps. -/
def scan : Nat → Text → List Node
  | 0, _ => []
  | _, [] => []
  | fuel + 1, c :: t =>
    if c = delim then
      match readRef t with
      | some (ref, rest) => .placeholder ref :: scan fuel rest
      | none => .ch c :: scan fuel t
    else .ch c :: scan fuel t

mutual
/-- document_processing_apply_substitutions.go:754-766: one element of `restore`. -/
def restoreOne (s : Store) : Node → Node
  | .placeholder ref => match s.get ref with
    | some n => .elem n
    | none => .missing
  | .group k ns => .group k (restore s ns)
  | .ch c => .ch c
  | .elem n => .elem n
  | .missing => .missing
/-- document_processing_apply_substitutions.go:753-769 `restore`. -/
def restore (s : Store) : List Node → List Node
  | [] => []
  | n :: ns => restoreOne s n :: restore s ns
end

end Verif.Placeholders
