import Verif.Model.Scan
/-!
Model of the selection of lines of a file to include:
pkg/parser/document_preprocessing.go lines 324-467, pkg/types/types.go lines 3300-3512 and the
grammar rules pkg/parser/parser.peg lines 148-213 and 2746, 2844.
-/
namespace Verif

/-- `Char` in `[0-9]` (parser.peg:2844). -/
def isDigit (c : Char) : Bool := decide ('0' ≤ c) && decide (c ≤ '9')

/-- Value of a decimal digit character. -/
def digitVal (c : Char) : Nat := c.toNat - '0'.toNat

/-- Decimal value of a digit string, as computed by `strconv.Atoi` (parser.peg:2845). -/
def digitsVal (ds : Text) : Nat := ds.foldl (fun n c => 10 * n + digitVal c) 0

/-- Range of Go's 64-bit `int`; `strconv.Atoi` fails outside (and then so does the parse). -/
def inInt64 (i : Int) : Bool := decide (-9223372036854775808 ≤ i) && decide (i ≤ 9223372036854775807)

/-- parser.peg:2844-2846 `Integer <- ("-"? [0-9]+)` with its `strconv.Atoi` action. Returns the
value and the remaining input. -/
def pInteger (t : Text) : Option (Int × Text) :=
  match t with
  | '-' :: r =>
    let ds := r.takeWhile isDigit
    if ds = [] then none
    else if inInt64 (-(digitsVal ds : Int)) then some (-(digitsVal ds : Int), r.dropWhile isDigit) else none
  | _ =>
    let ds := t.takeWhile isDigit
    if ds = [] then none
    else if inInt64 (digitsVal ds) then some ((digitsVal ds : Int), t.dropWhile isDigit) else none

/-- types.go:3329-3332 `LineRange`. -/
structure LineRange where
  start : Int
  stop : Int
deriving DecidableEq, Repr

/-- parser.peg:165-171: `MultilineRange / SinglelineRange`. -/
def pLineRange (t : Text) : Option (LineRange × Text) :=
  match pInteger t with
  | none => none
  | some (a, r) =>
    match r with
    | '.' :: '.' :: r' =>
      match pInteger r' with
      | some (b, r'') => some (⟨a, b⟩, r'')
      | none => some (⟨a, a⟩, r)
    | _ => some (⟨a, a⟩, r)

/-- parser.peg:156-163: the repetition `(("," / ";") other)*` of a separated list, for any item
rule. The fuel is the length of the input, which every iteration shortens. -/
def pSepRest {α : Type} (item : Text → Option (α × Text)) : Nat → Text → List α × Text
  | 0, t => ([], t)
  | n + 1, t =>
    match t with
    | c :: r =>
      if c = ',' ∨ c = ';' then
        match item r with
        | some (a, r') => let (as, r'') := pSepRest item n r'; (a :: as, r'')
        | none => ([], t)
      else ([], t)
    | [] => ([], t)

/-- parser.peg:149-163, 174-185: a separated list that must span the whole input (`EOF`). -/
def pSepAll {α : Type} (item : Text → Option (α × Text)) (t : Text) : Option (List α) :=
  match item t with
  | none => none
  | some (a, r) =>
    match pSepRest item r.length r with
    | (as, []) => some (a :: as)
    | _ => none

/-- parser.peg:149-154 rule `LineRanges` (entry point used by document_preprocessing.go:328). -/
def pLineRanges (t : Text) : Option (List LineRange) := pSepAll pLineRange t

/-- types.go:3347-3358 `LineRanges.Match`, with its early exit. -/
def lineMatch : List LineRange → Int → Bool
  | [], _ => false
  | r :: rs, n =>
    if r.start ≤ n ∧ (r.stop ≥ n ∨ r.stop = -1) then true
    else if r.start > n then false
    else lineMatch rs n

/-- Insertion into a list sorted by start line. Used to give one concrete result of
`sort.Sort` (types.go:3315, 3363-3365). -/
def insertRange (r : LineRange) : List LineRange → List LineRange
  | [] => [r]
  | x :: xs => if r.start ≤ x.start then r :: x :: xs else x :: insertRange r xs

/-- types.go:3305-3323 `NewLineRanges`: sorts by start line (`sort.Sort` is not stable: the theorems
quantify over every sorted permutation, this is the one used when running the model). -/
def newLineRanges (rs : List LineRange) : List LineRange := rs.foldr insertRange []

/-- parser.peg:207-213: the inclusion tags of a line. -/
inductive TagMacro where
  | start (name : Text)
  | stop (name : Text)
deriving DecidableEq, Repr

/-- parser.peg:207-213 `"tag::" Alphanums "[]"` / `"end::" Alphanums "[]"` at the start of the
input. `alnum` is the Unicode class `[\pL\pN]` (parser.peg:2746). -/
def pTagMacro (alnum : Char → Bool) (t : Text) : Option (TagMacro × Text) :=
  match t with
  | 't' :: 'a' :: 'g' :: ':' :: ':' :: r =>
    let n := r.takeWhile alnum
    if n = [] then none
    else match r.dropWhile alnum with
      | '[' :: ']' :: r' => some (.start n, r')
      | _ => none
  | 'e' :: 'n' :: 'd' :: ':' :: ':' :: r =>
    let n := r.takeWhile alnum
    if n = [] then none
    else match r.dropWhile alnum with
      | '[' :: ']' :: r' => some (.stop n, r')
      | _ => none
  | _ => none

/-- parser.peg:203-205 `IncludedFileLine <- (StartTag / EndTag / .)* EOL`: the tag macros found when
scanning the line from left to right (`.` also matches CR; lines contain no LF). The fuel is the
length of the line. -/
def lineTagsAux (alnum : Char → Bool) : Nat → Text → List TagMacro
  | 0, _ => []
  | n + 1, t =>
    match pTagMacro alnum t with
    | some (m, r) => m :: lineTagsAux alnum n r
    | none => match t with
      | [] => []
      | _ :: r => lineTagsAux alnum n r

/-- The tag macros of a line. -/
def lineTags (alnum : Char → Bool) (l : Text) : List TagMacro := lineTagsAux alnum l.length l

/-- types.go:3462-3472 `HasTag`. -/
def hasTag (alnum : Char → Bool) (l : Text) : Bool := !(lineTags alnum l).isEmpty

/-- types.go:3475-3482 `GetStartTag`: the first start tag of the line. -/
def getStartTag : List TagMacro → Option Text
  | [] => none
  | .start n :: _ => some n
  | .stop _ :: ms => getStartTag ms

/-- types.go:3485-3492 `GetEndTag`: the first end tag of the line. -/
def getEndTag : List TagMacro → Option Text
  | [] => none
  | .stop n :: _ => some n
  | .start _ :: ms => getEndTag ms

/-- Each line followed by LF: the `content.Write(...)`, `content.WriteString("\n")` pairs of
document_preprocessing.go:376-381, 417-424, 457-464. -/
def unlines (ls : List Text) : Text := (ls.map (fun l => l ++ ['\n'])).flatten

/-- document_preprocessing.go:358-386 `readWithinLines`, from line number `n` (already read). -/
def readWithinLines (alnum : Char → Bool) (rs : List LineRange) : Nat → List Text → List Text
  | _, [] => []
  | n, l :: ls =>
    if hasTag alnum l then readWithinLines alnum rs (n + 1) ls
    else if lineMatch rs (n + 1 : Nat) then l :: readWithinLines alnum rs (n + 1) ls
    else readWithinLines alnum rs (n + 1) ls

/-- document_preprocessing.go:442-467 `readAll`. -/
def readAll (alnum : Char → Bool) (ls : List Text) : List Text := ls.filter (fun l => !hasTag alnum l)

/-- types.go:3425-3428 `TagRange`. -/
structure TagRange where
  name : Text
  included : Bool
deriving DecidableEq, Repr

/-- parser.peg:187-201: `Alphanums / TagWildcard`. -/
def pTagName (alnum : Char → Bool) (t : Text) : Option (Text × Text) :=
  let n := t.takeWhile alnum
  if n ≠ [] then some (n, t.dropWhile alnum)
  else
    let s := t.takeWhile (· = '*')
    if s ≠ [] ∧ s.length ≤ 2 then some (s, t.dropWhile (· = '*')) else none

/-- parser.peg:187-191 `TagRange`. -/
def pTagRange (alnum : Char → Bool) (t : Text) : Option (TagRange × Text) :=
  match pTagName alnum t with
  | some (n, r) => some (⟨n, true⟩, r)
  | none =>
    match t with
    | '!' :: r => (pTagName alnum r).map (fun p => (⟨p.1, false⟩, p.2))
    | _ => none

/-- parser.peg:174-185 rule `TagRanges` (entry point used by document_preprocessing.go:347). -/
def pTagRanges (alnum : Char → Bool) (t : Text) : Option (List TagRange) := pSepAll (pTagRange alnum) t

/-- types.go:3444-3447 `CurrentTagRange`; `EndLine = -1` (still open) is `none`. -/
structure CurRange where
  startLine : Nat
  endLine : Option Nat
deriving DecidableEq, Repr

/-- `map[string]*CurrentTagRange` (document_preprocessing.go:390), as an association list whose
order stands for the iteration order. -/
abbrev CurRanges := List (Text × CurRange)

/-- types.go:3404-3414: the inner loop of `TagRanges.Match` for one selector, iterating over the
region map in the given order. -/
def tagMatchInner (t : TagRange) : CurRanges → Bool → Bool
  | [], m => m
  | (n, r) :: cs, m =>
    tagMatchInner t cs
      (if r.endLine ≠ none then m
       else if t.name = ['*'] then t.included
       else if t.name = n then t.included
       else m)

/-- types.go:3394-3418 `TagRanges.Match`. `order` is the iteration order Go happens to choose for
each of the selectors. (The line number is not used by the Go code.) -/
def tagMatch (sel : List TagRange) (order : TagRange → CurRanges) : Bool :=
  sel.foldl (fun m t => if t.name = ['*', '*'] then true else tagMatchInner t (order t) m) false

/-- `currentRanges[k]`. -/
def curGet : CurRanges → Text → Option CurRange
  | [], _ => none
  | (n, r) :: cs, k => if n = k then some r else curGet cs k

/-- `currentRanges[k] = r`: update in place or add. -/
def curSet : CurRanges → Text → CurRange → CurRanges
  | [], k, r => [(k, r)]
  | (n, r') :: cs, k, r => if n = k then (n, r) :: cs else (n, r') :: curSet cs k r

/-- Outcomes other than success. -/
inductive Err where
  /-- a Go `error` is returned -/
  | error
  /-- the Go code panics -/
  | panic
  /-- the recursion budget of the model is exhausted -/
  | diverge
deriving DecidableEq, Repr

/-- document_preprocessing.go:404-413: the effect of the tags of one line on the region map;
`currentRanges[endTag.Value].EndLine = …` dereferences nil when the tag was never started. -/
def updateRanges (cur : CurRanges) (n : Nat) (tags : List TagMacro) : Except Err CurRanges :=
  let cur := match getStartTag tags with
    | some s => curSet cur s ⟨n, none⟩
    | none => cur
  match getEndTag tags with
  | some e =>
    match curGet cur e with
    | some r => .ok (curSet cur e { r with endLine := some n })
    | none => .error .panic
  | none => .ok cur

/-- document_preprocessing.go:392-425: the reading loop of `readWithinTags`. Returns the selected
lines and the final region map. `ord n t` is the order in which Go happens to iterate over the
region map when checking line `n` against selector `t` (any permutation). -/
def readTagsLoop (alnum : Char → Bool) (ord : Nat → TagRange → CurRanges → CurRanges) (sel : List TagRange) :
    CurRanges → Nat → List Text → Except Err (List Text × CurRanges)
  | cur, _, [] => .ok ([], cur)
  | cur, n, l :: ls =>
    let tags := lineTags alnum l
    match updateRanges cur (n + 1) tags with
    | .error e => .error e
    | .ok cur =>
      match readTagsLoop alnum ord sel cur (n + 1) ls with
      | .error e => .error e
      | .ok (out, cur') =>
        if tagMatch sel (fun t => ord (n + 1) t cur) && tags.isEmpty then .ok (l :: out, cur') else .ok (out, cur')

/-- document_preprocessing.go:388-440 `readWithinTags`: reading, then the check that every named tag
was found (unclosed tags only log a warning). -/
def readWithinTags (alnum : Char → Bool) (ord : Nat → TagRange → CurRanges → CurRanges) (sel : List TagRange)
    (ls : List Text) : Except Err (List Text) :=
  match readTagsLoop alnum ord sel [] 0 ls with
  | .error e => .error e
  | .ok (out, cur) =>
    if sel.all (fun t => t.name = ['*'] || t.name = ['*', '*'] || (curGet cur t.name).isSome) then .ok out
    else .error .error

end Verif
