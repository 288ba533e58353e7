import Verif.Model.Basic
/-!
Model of pkg/types/types_utils.go: `merge`, `Reduce`, `TrimTrailingSpaces`, `SplitElementsPerLine`.
-/
namespace Verif.Merge

/-- A value in a sequence of inline elements. -/
inductive MEl where
  | nil
  /-- `string` or `[]byte` -/
  | raw (t : Text)
  /-- types.go:1843 `StringElement` -/
  | elem (t : Text)
  /-- the `Symbol` named `" -- "` (parser.peg:2547-2554) -/
  | dash
  /-- any other element -/
  | other (n : Nat)
  /-- `[]interface{}` -/
  | slice (es : List MEl)

/-- types_utils.go:52-57, and 29-34: the buffered text as an element, if there is any. -/
def flush (buf : Text) : List MEl := if buf = [] then [] else [.elem buf]

/-- types_utils.go:41-44: the text before a `" -- "` symbol loses one trailing space. -/
def trimOne (buf : Text) : Text := if buf.getLast? = some ' ' then buf.dropLast else buf

/-- types_utils.go:40-49: the buffered text as an element before a `" -- "` symbol; the element is there even if the
trimmed text is empty. -/
def flushDash (buf : Text) : List MEl := if buf = [] then [] else [.elem (trimOne buf)]

/-- types_utils.go:12-59 `merge` on a sequence without slices: `result` followed by the rest of the loop. -/
def flatLoop (result : List MEl) (buf : Text) : List MEl → List MEl
  | [] => result ++ flush buf
  | .nil :: es => flatLoop result buf es
  | .raw t :: es => flatLoop result (buf ++ t) es
  | .elem t :: es => flatLoop result (buf ++ t) es
  | .dash :: es => flatLoop (result ++ flushDash buf ++ [.dash]) [] es
  | .other n :: es => flatLoop (result ++ flush buf ++ [.other n]) [] es
  | .slice _ :: es => flatLoop result buf es

/-- types_utils.go:12-59 `merge`. Lines 26-36, the case of a slice: the recursive call of line 35 is on a sequence without
slices, for which `flatLoop` is the same function (`C21.merge_go`). -/
def loop (result : List MEl) (buf : Text) : List MEl → List MEl
  | [] => result ++ flush buf
  | .nil :: es => loop result buf es
  | .raw t :: es => loop result (buf ++ t) es
  | .elem t :: es => loop result (buf ++ t) es
  | .dash :: es => loop (result ++ flushDash buf ++ [.dash]) [] es
  | .other n :: es => loop (result ++ flush buf ++ [.other n]) [] es
  | .slice s :: es =>
    if s.isEmpty then loop result buf es
    else loop (flatLoop [] [] (result ++ flush buf ++ loop [] [] s)) [] es

/-- types_utils.go:12-59 `merge`. -/
def merge (es : List MEl) : List MEl := loop [] [] es

/-- The result of `Reduce`. -/
inductive Reduced where
  | nil
  | str (t : Text)
  | els (es : List MEl)

/-- types_utils.go:98-122 `Reduce` on a slice, with the options composed to one function. -/
def reduce (f : Text → Text) (es : List MEl) : Reduced :=
  match merge es with
  | [] => .nil
  | [.elem t] => .str (f t)
  | es => .els es

/-- types_utils.go:123-134 `Reduce` on a string (or on a `StringElement`, with `f` the identity). -/
def reduceStr (f : Text → Text) (t : Text) : Reduced := if f t = [] then .nil else .str (f t)

/-- `strings.Split(s, "\n")`: line by line; never empty. -/
def splitNL : Text → List Text
  | [] => [[]]
  | c :: t => if c = '\n' then [] :: splitNL t else
    match splitNL t with
    | [] => [[c]]
    | l :: ls => (c :: l) :: ls

/-- types_utils.go:211-216: append to the current line, if non-empty. -/
def addText (line : List MEl) (t : Text) : List MEl := if t = [] then line else line ++ [.elem t]

/-- types_utils.go:208-222: the pieces of one string element. -/
def splitPieces (lines : List (List MEl)) (line : List MEl) : List Text → List (List MEl) × List MEl
  | [] => (lines, line)
  | [t] => (lines, addText line t)
  | t :: u :: ts => splitPieces (lines ++ [addText line t]) [] (u :: ts)

/-- types_utils.go:203-226: the loop. -/
def splitLoop (lines : List (List MEl)) (line : List MEl) : List MEl → List (List MEl) × List MEl
  | [] => (lines, line)
  | .elem t :: es => let r := splitPieces lines line (splitNL t); splitLoop r.1 r.2 es
  | e :: es => splitLoop lines (line ++ [e]) es

/-- types_utils.go:200-231 `SplitElementsPerLine`. -/
def splitPerLine (es : List MEl) : List (List MEl) :=
  let r := splitLoop [] [] es
  if r.2.isEmpty then r.1 else r.1 ++ [r.2]

end Verif.Merge
