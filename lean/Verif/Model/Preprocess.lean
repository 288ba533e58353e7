import Verif.Model.Include
/-!
Model of pkg/parser/document_preprocessing.go (`Preprocess`), of the conditionals in
pkg/types/types.go lines 2936-3228 and of the attribute context in pkg/parser/context.go.
-/
namespace Verif

/-- An attribute value (Go `interface{}`) as far as conditionals look at it: strings, ints, floats
(modelled as rationals, no NaN), anything else (nil, slices, …) is `other`. -/
inductive Val where
  | str (s : Text)
  | int (i : Int)
  | flt (q : Rat)
  | other (id : Nat)
deriving DecidableEq, Repr

/-- context.go:61-65 `contextAttributes`: the attributes given through the API and the ones declared
in the document. -/
structure CtxAttrs where
  imm : AMap Val
  doc : AMap Val
deriving Repr

namespace CtxAttrs

/-- context.go:67-73 `newContextAttributes`. -/
def new (attrs : AMap Val) : CtxAttrs := ⟨attrs, []⟩

/-- context.go:97-103 `get`. -/
def get (a : CtxAttrs) (k : String) : Option Val :=
  match AMap.get a.imm k with
  | some v => some v
  | none => AMap.get a.doc k

/-- context.go:112-119 `set`. -/
def set (a : CtxAttrs) (k : String) (v : Val) : CtxAttrs := { a with doc := AMap.set a.doc k v }

/-- context.go:121-125 `unset`. -/
def unset (a : CtxAttrs) (k : String) : CtxAttrs := { a with doc := AMap.del a.doc k }

/-- context.go:127-133 `setAll`, for the iteration order of the given list. -/
def setAll (a : CtxAttrs) (kvs : AMap Val) : CtxAttrs := { a with doc := AMap.setAll a.doc kvs }

/-- context.go:85-95 `allAttributes`: document attributes first, then the API ones on top; for
some iteration orders of the two maps. -/
def all (a : CtxAttrs) : AMap Val := AMap.setAll (AMap.setAll [] a.doc) a.imm

end CtxAttrs

/-- types.go:3047-3221: the six comparison operators of `ifeval`. -/
inductive CmpOp where
  | eq | ne | lt | le | gt | ge
deriving DecidableEq, Repr

/-- types.go:3049-3217: comparison of two operands; operands of different (or other) types compare
as false. Go compares strings bytewise, which for UTF-8 is the code point order. -/
def CmpOp.eval : CmpOp → Val → Val → Bool
  | .eq, .str a, .str b => decide (a = b)
  | .eq, .flt a, .flt b => decide (a = b)
  | .eq, .int a, .int b => decide (a = b)
  | .ne, .str a, .str b => decide (a ≠ b)
  | .ne, .flt a, .flt b => decide (a ≠ b)
  | .ne, .int a, .int b => decide (a ≠ b)
  | .lt, .str a, .str b => decide (a < b)
  | .lt, .flt a, .flt b => decide (a < b)
  | .lt, .int a, .int b => decide (a < b)
  | .le, .str a, .str b => decide (a ≤ b)
  | .le, .flt a, .flt b => decide (a ≤ b)
  | .le, .int a, .int b => decide (a ≤ b)
  | .gt, .str a, .str b => decide (b < a)
  | .gt, .flt a, .flt b => decide (b < a)
  | .gt, .int a, .int b => decide (b < a)
  | .ge, .str a, .str b => decide (b ≤ a)
  | .ge, .flt a, .flt b => decide (b ≤ a)
  | .ge, .int a, .int b => decide (b ≤ a)
  | _, _, _ => false

/-- An operand of `ifeval`: an attribute reference or a literal (parser.peg:91-97). -/
inductive Operand where
  | ref (name : String)
  | lit (v : Val)
deriving DecidableEq, Repr

/-- types.go:3025-3041: `left`/`right`. An unresolved reference is passed on as such (a value of
type `*AttributeReference`, comparable to nothing). -/
def Operand.value (attrs : AMap Val) : Operand → Val
  | .ref n => match AMap.get attrs n with
    | some v => v
    | none => .other 0
  | .lit v => v

/-- types.go:2940-3045 `ConditionalInclusion`: `ifdef`/`ifndef` with their optional single line
content (`none` when `Substitution == ""`), `ifeval`. -/
inductive Cond where
  | ifdef (name : String) (content : Option Text)
  | ifndef (name : String) (content : Option Text)
  | ifeval (l : Operand) (op : CmpOp) (r : Operand)
deriving DecidableEq, Repr

/-- types.go:2963-2969, 2993-2996, 3021-3023 `Eval`. -/
def Cond.eval (attrs : AMap Val) : Cond → Bool
  | .ifdef n _ => (AMap.get attrs n).isSome
  | .ifndef n _ => !(AMap.get attrs n).isSome
  | .ifeval l op r => op.eval (l.value attrs) (r.value attrs)

/-- types.go:2971-2973, 2998-3000, 3043-3045 `SingleLineContent`. -/
def Cond.single : Cond → Option Text
  | .ifdef _ c => c
  | .ifndef _ c => c
  | .ifeval .. => none

/-- An element of the path of an include directive: literal text or an attribute reference
(counters in paths are not modelled). -/
inductive PathElem where
  | lit (t : Text)
  | ref (name : String)
deriving DecidableEq, Repr

/-- types.go:3235-3239 `FileInclusion`: path and the three attributes the preprocessor looks at. -/
structure Inclusion where
  path : List PathElem
  lines : Option Text
  tags : Option Text
  levelOffset : Option Text
deriving DecidableEq, Repr

/-- What the grammar rule `DocumentRawLine` (parser.peg:25-36) can return. -/
inductive RawElem where
  | decl (name : String) (value : Val) (raw : Text)
  | reset (name : String) (raw : Text)
  | incl (i : Inclusion)
  | cond (c : Cond)
  | endif
  | delim (kind : String) (len : Nat) (raw : Text)
  | sect (level : Int) (raw : Text)
deriving DecidableEq, Repr

/-- document_preprocessing.go:301-304 `levelOffset`. -/
structure Offset where
  absolute : Bool
  value : Int
deriving DecidableEq, Repr

/-- The world around the preprocessor. `classify se wb l` is the result of parsing line `l` with
entry point `DocumentRawLine` when sections are enabled (`se`) and when within a delimited block
(`wb`); `none` is a parse error. `resolve` is `filepath.Abs(filepath.Join(filepath.Dir(f), p))`.
`fs` is the file system. `alnum` is the class `[\pL\pN]`. `showVal` is how an attribute value is
rendered inside a path. -/
structure Env where
  classify : Bool → Bool → Text → Option RawElem
  resolve : Text → Text → Text
  fs : Text → Option Text
  alnum : Char → Bool
  showVal : Val → Text

/-- context.go:12-19 `ParseContext`, as far as preprocessing uses it; `sectEnabled` and `within` are
the entries `raw_section_enabled` and `within_delimited_block` of the parser's global store. -/
structure Ctx where
  filename : Text
  attrs : CtxAttrs
  offsets : List Offset
  sectEnabled : Bool
  within : Bool
deriving Repr

/-- strings.Repeat: panics on a negative count. -/
def repeatEq (n : Int) : Option Text := if n < 0 then none else some (List.replicate n.toNat '=')

/-- strings.Replace(s, old, new, 1): replaces the first occurrence. -/
def replaceFirst (old new : Text) : Text → Text
  | [] => if old = [] then new else []
  | c :: cs =>
    if old.isPrefixOf (c :: cs) then new ++ (c :: cs).drop old.length
    else c :: replaceFirst old new cs

/-- types.go:2418-2421 `RawSection`. -/
structure RawSection where
  level : Int
  raw : Text
deriving DecidableEq, Repr

/-- types.go:2430-2433 `OffsetLevel`; `strings.Repeat` panics on negative counts. -/
def RawSection.offsetLevel (s : RawSection) (o : Int) : Except Err RawSection :=
  match repeatEq (s.level + 1), repeatEq (s.level + 1 + o) with
  | some a, some b => .ok ⟨s.level + o, replaceFirst (a ++ [' ']) (b ++ [' ']) s.raw⟩
  | _, _ => .error .panic

/-- document_preprocessing.go:306-314 `levelOffset.apply`: also returns the updated offset (the Go
method mutates it in place). -/
def Offset.apply (o : Offset) (s : RawSection) : Except Err (Offset × RawSection) :=
  let o := if o.absolute then ⟨false, o.value - s.level⟩ else o
  match s.offsetLevel o.value with
  | .ok s => .ok (o, s)
  | .error e => .error e

/-- document_preprocessing.go:284-292 `levelOffsets.apply`. -/
def applyOffsets : List Offset → RawSection → Except Err (List Offset × RawSection)
  | [], s => .ok ([], s)
  | o :: os, s =>
    match o.apply s with
    | .error e => .error e
    | .ok (o, s) =>
      match applyOffsets os s with
      | .error e => .error e
      | .ok (os, s) => .ok (o :: os, s)

/-- document_preprocessing.go:140-168 `builder`. -/
structure Builder where
  acc : Text
  insertLF : Bool
  enabled : Bool
deriving Repr

/-- document_preprocessing.go:146-160 `WriteString`/`Write`. -/
def Builder.write (b : Builder) (t : Text) : Builder :=
  if b.enabled then
    { b with acc := b.acc ++ (if b.insertLF then '\n' :: t else t), insertLF := true }
  else b

/-- document_preprocessing.go:171-213 `conditions`: the results of the pushed conditions, innermost
last. -/
abbrev Conds := List Bool

/-- document_preprocessing.go:202-213 `conditions.eval`. -/
def condsEval (c : Conds) : Bool := c.all id

/-- document_preprocessing.go:194-200 `conditions.pop`. -/
def condsPop (c : Conds) : Conds := c.dropLast

/-- document_preprocessing.go:83-90 the stack of block delimiters, innermost last. -/
abbrev Tracker := List (String × Nat)

/-- document_preprocessing.go:98-110 `blockDelimiterTracker.track`. -/
def track (t : Tracker) (kind : String) (len : Nat) : Tracker :=
  if t.getLast? = some (kind, len) then t.dropLast else t ++ [(kind, len)]

/-- The local variables of `preprocess` (document_preprocessing.go:25-34). -/
structure St where
  ctx : Ctx
  b : Builder
  conds : Conds
  tracker : Tracker
deriving Repr

/-- document_preprocessing.go:29-34 initial values. -/
def St.init (ctx : Ctx) : St := ⟨ctx, ⟨[], false, true⟩, [], []⟩

/-- document_preprocessing.go:35-79: one iteration of the loop of `preprocess`. `inc` is
`includeFile` (it gets the parent context, cloned in Go, and returns the text and the parent's
level offsets, which are shared pointers). -/
def stepLine (env : Env) (inc : Ctx → Inclusion → Except Err (Text × List Offset)) (st : St) (line : Text) :
    Except Err St :=
  match env.classify st.ctx.sectEnabled st.ctx.within line with
  | none => .ok { st with b := st.b.write line }
  | some (.decl n v raw) =>
    .ok { st with ctx := { st.ctx with attrs := st.ctx.attrs.set n v }, b := st.b.write raw }
  | some (.reset n raw) =>
    .ok { st with ctx := { st.ctx with attrs := st.ctx.attrs.unset n }, b := st.b.write raw }
  | some (.sect lvl raw) =>
    match applyOffsets st.ctx.offsets ⟨lvl, raw⟩ with
    | .error e => .error e
    | .ok (os, s) => .ok { st with ctx := { st.ctx with offsets := os }, b := st.b.write s.raw }
  | some (.incl i) =>
    match inc st.ctx i with
    | .error e => .error e
    | .ok (t, os) => .ok { st with ctx := { st.ctx with offsets := os }, b := st.b.write t }
  | some (.delim k n raw) =>
    let tr := track st.tracker k n
    .ok { st with tracker := tr, ctx := { st.ctx with within := !tr.isEmpty }, b := st.b.write raw }
  | some (.cond c) =>
    match c.single with
    | some t => .ok (if c.eval st.ctx.attrs.all then { st with b := st.b.write t } else st)
    | none =>
      let cs := st.conds ++ [c.eval st.ctx.attrs.all]
      .ok { st with conds := cs, b := { st.b with enabled := condsEval cs } }
  | some .endif =>
    let cs := condsPop st.conds
    .ok { st with conds := cs, b := { st.b with enabled := condsEval cs } }

/-- document_preprocessing.go:35: the loop over the lines. -/
def runLines (env : Env) (inc : Ctx → Inclusion → Except Err (Text × List Offset)) :
    St → List Text → Except Err St
  | st, [] => .ok st
  | st, l :: ls =>
    match stepLine env inc st l with
    | .error e => .error e
    | .ok st => runLines env inc st ls

/-- strconv.Atoi on a decimal string with optional sign (Go stdlib). -/
def atoi (t : Text) : Option Int :=
  let (neg, ds) := match t with
    | '-' :: r => (true, r)
    | '+' :: r => (false, r)
    | _ => (false, t)
  if ds = [] ∨ ¬ ds.all isDigit then none
  else
    let v : Int := if neg then -(digitsVal ds : Int) else digitsVal ds
    if inInt64 v then some v else none

/-- document_preprocessing.go:120-129 the path of the directive with its attribute references
replaced; unknown references stay as `{name}` (document_processing_apply_substitutions.go:550-565). -/
def pathText (env : Env) (attrs : CtxAttrs) (p : List PathElem) : Text :=
  (p.map (fun e => match e with
    | .lit t => t
    | .ref n => match attrs.get n with
      | some v => env.showVal v
      | none => '{' :: n.toList ++ ['}'])).flatten

/-- The extension of a path: filepath.Ext (from the last '.', none after a '/'). -/
def pathExt (p : Text) : Text :=
  let rev := (p.reverse.takeWhile (fun c => c ≠ '.' ∧ c ≠ '/'))
  match p.reverse.drop rev.length with
  | '.' :: _ => '.' :: rev.reverse
  | _ => []

/-- document_preprocessing.go:517-520 `IsAsciidoc`. -/
def isAsciidoc (p : Text) : Bool :=
  let e := pathExt p
  e = ".asciidoc".toList || e = ".adoc".toList || e = ".ad".toList || e = ".asc".toList || e = ".txt".toList

/-- document_preprocessing.go:225-252: the part of the file selected by the directive. (Here the region
map is iterated in insertion order; `C04.order_irrelevant` shows that any order gives the same result.) -/
def selectLines (env : Env) (i : Inclusion) (content : Text) : Except Err (List Text) :=
  match i.lines with
  | some spec =>
    match pLineRanges spec with
    | none => .error .error
    | some rs => .ok (readWithinLines env.alnum (newLineRanges rs) 0 (scanLines content))
  | none =>
    match i.tags with
    | some spec =>
      match pTagRanges env.alnum spec with
      | none => .error .error
      | some ts => readWithinTags env.alnum (fun _ _ c => c) ts (scanLines content)
    | none => .ok (readAll env.alnum (scanLines content))

/-- How the directive changes the level offsets (document_preprocessing.go:259-272). -/
inductive OffsetChange where
  | keep
  | relative (n : Int)
  | absolute (n : Int)
deriving DecidableEq, Repr

/-- document_preprocessing.go:259-272. -/
def offsetChange (i : Inclusion) : Except Err OffsetChange :=
  match i.levelOffset with
  | none => .ok .keep
  | some t =>
    match atoi t with
    | none => .error .error
    | some n => if t.head? = some '+' ∨ t.head? = some '-' then .ok (.relative n) else .ok (.absolute n)

/-- The level offsets in force inside the included file. -/
def childOffsets (os : List Offset) : OffsetChange → List Offset
  | .keep => os
  | .relative n => os ++ [⟨false, n⟩]
  | .absolute n => [⟨true, n⟩]

/-- The parent's level offsets after the inclusion: `levelOffsets.clone` (lines 294-298) copies the
slice but shares the pointed-to offsets, so what the child did to the shared ones is visible. -/
def parentOffsets (os : List Offset) (ch : OffsetChange) (after : List Offset) : List Offset :=
  match ch with
  | .keep => after
  | .relative _ => after.take os.length
  | .absolute _ => os

/-- document_preprocessing.go:120-138 `includeFile` with 215-274 `contentOf`; `rec` is the recursive
call of `preprocess` on the content of the included file. -/
def includeFile (env : Env) (recCall : Ctx → Text → Except Err (Text × List Offset)) (ctx : Ctx) (i : Inclusion) :
    Except Err (Text × List Offset) :=
  let file := env.resolve ctx.filename (pathText env ctx.attrs i.path)
  match env.fs file with
  | none => .error .error
  | some content =>
    match selectLines env i content with
    | .error e => .error e
    | .ok ls =>
      if scanErr content then .error .error
      else
        match offsetChange i with
        | .error e => .error e
        | .ok ch =>
          if isAsciidoc file then
            match recCall { ctx with filename := file, offsets := childOffsets ctx.offsets ch, sectEnabled := true }
                (unlines ls) with
            | .error e => .error e
            | .ok (t, os) => .ok (t, parentOffsets ctx.offsets ch os)
          else .ok (unlines ls, ctx.offsets)

/-- document_preprocessing.go:25-81 `preprocess`. The fuel bounds the depth of nested inclusions
(the Go code has no bound). Returns the text and the final level offsets. -/
def preprocess (env : Env) : Nat → Ctx → Text → Except Err (Text × List Offset)
  | 0, _, _ => .error .diverge
  | n + 1, ctx, src =>
    match runLines env (includeFile env (preprocess env n)) (St.init ctx) (scanLines src) with
    | .error e => .error e
    | .ok st => .ok (st.b.acc, st.ctx.offsets)

/-- document_preprocessing.go:20-23 and context.go:21-41: the initial context of `Preprocess`. -/
def rootCtx (filename : Text) (apiAttrs : AMap Val) : Ctx :=
  ⟨filename, CtxAttrs.new apiAttrs, [], false, false⟩

end Verif
