import Verif.Model.Aggregate
/-!
Model of pkg/parser/document_processing_arrange_lists.go and of the methods of lists and list elements it uses
(pkg/types/types.go lines 760-1500).

Simplifications: the content of a list element and of an attached block is a label; the attributes of list elements
(moved to the list by `NewList`, types.go:995-1013) and the interactive check style are left out; an attached
element is never a `RawLine` (types.go:774-784: the grammar wraps it in a paragraph, parser.peg:1559-1563).
-/
namespace Verif.Lists
open Verif (Forest)

/-- types.go:1508-1522 the bullet styles. -/
inductive Bullet where
  | dash | one | two | three | four | five
deriving DecidableEq, Repr

/-- types.go:1493-1506 `next`. -/
def Bullet.next : Bullet → Bullet
  | .dash => .one
  | .one => .two
  | .two => .three
  | .three => .four
  | _ => .five

/-- Kind and style of a list element: `ListKind` (types.go:988-993) together with what `matchesStyle` compares
(types.go:1091, 1212, 1354, 1642). -/
inductive Style where
  | callout
  | ordered (style : Text)
  | unordered (bullet : Bullet)
  | labeled (style : Text)
deriving DecidableEq, Repr

mutual
/-- An element of a fragment before arrangement. -/
inductive BEl where
  /-- any other element -/
  | leaf (n : Nat)
  /-- types.go:2299 `DelimitedBlock` -/
  | block (n : Nat) (es : List BEl)
  /-- types.go:889 `ListElements` -/
  | lists (es : List LEl)
/-- An element of `ListElements`. -/
inductive LEl where
  /-- a `ListElement` -/
  | item (s : Style) (n : Nat)
  /-- types.go:1015 `ListContinuation` -/
  | cont (offset : Nat) (e : BEl)
  /-- anything else (types.go:928-930) -/
  | other (n : Nat)
end

/-- A node of the arranged list: a list (with the style of its first element), a list element, an attached
block. -/
inductive LNode where
  | list (s : Style)
  | item (s : Style) (n : Nat)
  | blk (e : BEl)

/-- document_processing_arrange_lists.go:113-115 `listStack`: for each list on the stack, the style of its first and
of its last element. -/
structure Entry where
  first : Style
  last : Style

/-- The state of the arrangement: everything added so far, and the stack (innermost list last). Each list on the stack
is the last child of the last element of the list below it. -/
structure ArrSt where
  tree : Forest LNode
  stack : List Entry

/-- document_processing_arrange_lists.go:171-180: index of the innermost list that can take the element
(types.go:831-841 `CanAddElement`: same kind, and same style as its last element). -/
def lastMatch (s : Style) : List Entry → Option Nat
  | [] => none
  | e :: es =>
    match lastMatch s es with
    | some i => some (i + 1)
    | none => if e.last = s then some 0 else none

/-- `AdjustStyle` of the four kinds of list elements (types.go:1096, 1219, 1362-1374, 1649), given the innermost list on
the stack. -/
def adjust (top : Option Entry) (s : Style) : Style :=
  match s, top with
  | .unordered _, some ⟨.unordered o, _⟩ => .unordered o.next
  | s, _ => s

/-- document_processing_arrange_lists.go:81-109: one element; `none` stands for the error of line 107. -/
def step (st : ArrSt) : LEl → Option ArrSt
  | .item s n =>
    match lastMatch s st.stack with
    | some i =>
      -- lines 87-92: `AddElement` on that list (types.go:846-864), the lists above it are dropped from the stack
      some ⟨st.tree.insertAt (2 * i + 1) (.item s n), (st.stack.take (i + 1)).modify i (fun e => { e with last := s })⟩
    | none =>
      -- lines 94-105: a new list, added to the last element of the innermost list
      let s' := adjust st.stack.getLast? s
      some ⟨(st.tree.insertAt (2 * st.stack.length) (.list s')).insertAt (2 * st.stack.length + 1) (.item s' n),
        st.stack ++ [⟨s', s'⟩]⟩
  | .cont o e =>
    -- lines 166-170: drop `o` lists from the stack; the innermost remaining one can always take it
    let stack := st.stack.take (st.stack.length - o)
    if stack = [] then none
    else some ⟨st.tree.insertAt (2 * stack.length) (.blk e), stack⟩
  | .other _ => none

/-- document_processing_arrange_lists.go:82-110: the loop. -/
def run (st : ArrSt) : List LEl → Option ArrSt
  | [] => some st
  | e :: es => match step st e with
    | none => none
    | some st => run st es

/-- document_processing_arrange_lists.go:78-111 `doArrangeListElements`: the root list. -/
def arrange (es : List LEl) : Option (Forest LNode) := (run ⟨.nil, []⟩ es).map ArrSt.tree

/-- An element of a fragment after arrangement. -/
inductive AEl where
  | leaf (n : Nat)
  | block (n : Nat) (es : List AEl)
  | list (f : Forest LNode)

mutual
/-- document_processing_arrange_lists.go:52-71: one element. -/
def arrangeEl : BEl → Option AEl
  | .leaf n => some (.leaf n)
  | .block n es => (arrangeEls es).map (AEl.block n)
  | .lists es => (arrange es).map AEl.list
/-- document_processing_arrange_lists.go:49-76 `arrangeListElements`. -/
def arrangeEls : List BEl → Option (List AEl)
  | [] => some []
  | e :: es => match arrangeEl e, arrangeEls es with
    | some a, some as => some (a :: as)
    | _, _ => none
end

mutual
/-- Whether `ListElements` occur in an element: pkg/renderer/sgml/elements.go:46-116 has no case for them, so that
rendering fails (line 115). -/
def hasRawLists : BEl → Bool
  | .leaf _ => false
  | .block _ es => anyRawLists es
  | .lists _ => true
/-- The same for a sequence of elements. -/
def anyRawLists : List BEl → Bool
  | [] => false
  | e :: es => hasRawLists e || anyRawLists es
end

/-- pkg/renderer/sgml/elements.go:46-116: whether the renderer accepts all blocks attached to the elements of a list. -/
def listRenderable : Forest LNode → Bool
  | .nil => true
  | .cons (.blk e) ks r => !hasRawLists e && listRenderable ks && listRenderable r
  | .cons _ ks r => listRenderable ks && listRenderable r

end Verif.Lists
