import Verif.Model.Aggregate
/-!
Model of the identifiers of sections (pkg/types/non_alphanumerics_replacement.go, pkg/types/types.go
lines 2521-2573), of cross references by title (types.go lines 1877-1917,
pkg/renderer/sgml/cross_reference.go) and of the complete loop of
pkg/parser/document_processing_aggregate.go lines 26-128.

`alnum` stands for `unicode.Is(unicode.Letter, r) || unicode.Is(unicode.Number, r)` and is arbitrary;
`fmt` stands for `fmt.Sprintf("%v", …)` of an attribute value that is neither nil nor a string.
-/
namespace Verif

/-- Go `strings.TrimSuffix(t, suf)`. -/
def trimSuffix (suf t : Text) : Text := if suf.isSuffixOf t then t.take (t.length - suf.length) else t

/-- Go `strings.ReplaceAll(t, old, new)` for a non-empty `old`: leftmost, non-overlapping occurrences;
`skip` characters of the occurrence just replaced are still to be dropped. -/
def replaceAllAux (old new : Text) : Nat → Text → Text
  | _, [] => []
  | skip + 1, _ :: t => replaceAllAux old new skip t
  | 0, c :: t =>
    if old.isPrefixOf (c :: t) then new ++ replaceAllAux old new (old.length - 1) t
    else c :: replaceAllAux old new 0 t

/-- Go `strings.ReplaceAll(t, old, new)`; with an empty `old`, `new` is inserted before each character
and at the end. -/
def replaceAll (old new t : Text) : Text :=
  if old = [] then new ++ t.flatMap (fun c => c :: new) else replaceAllAux old new 0 t

/-- The characters turned into a separator, non_alphanumerics_replacement.go:73. -/
def isSepChar (c : Char) : Bool := decide (c = ' ') || decide (c = '-') || decide (c = '.')

/-- non_alphanumerics_replacement.go:64-80 `replaceNonAlphanumerics`; `last` is `lastCharIsSeparator`. -/
def replaceNonAlnum (alnum : Char → Bool) (sep : Text) : Bool → Text → Text
  | _, [] => []
  | last, c :: t =>
    if alnum c then c :: replaceNonAlnum alnum sep false t
    else if !last && isSepChar c then sep ++ replaceNonAlnum alnum sep true t
    else replaceNonAlnum alnum sep last t

/-- non_alphanumerics_replacement.go:59-61. -/
def dedupSep (sep t : Text) : Text := replaceAll (sep ++ sep) sep (trimSuffix sep t)

mutual
/-- non_alphanumerics_replacement.go:28-58: the loop over the elements; `first` is `i == 0`. -/
def replElems (alnum : Char → Bool) (sep : Text) : Bool → List TElem → Text
  | _, [] => []
  | first, e :: es => replElem alnum sep first e ++ replElems alnum sep false es

/-- non_alphanumerics_replacement.go:31-57: one element. -/
def replElem (alnum : Char → Bool) (sep : Text) : Bool → TElem → Text
  | _, .quoted es => dedupSep sep (replElems alnum sep true es) ++ sep
  | first, .str t => replaceNonAlnum alnum sep false (if first then t.dropWhile (fun c => decide (c = ' ')) else t)
  | _, .link (some l) => replaceNonAlnum alnum sep false l ++ sep
  | _, .link none => []
  | _, .icon t => replaceNonAlnum alnum sep false t ++ sep
  | _, .other _ => []
end

/-- non_alphanumerics_replacement.go:10-26 `ReplaceNonAlphanumerics` on a list of elements. -/
def titleID (alnum : Char → Bool) (pre sep : Text) (title : List TElem) : Text :=
  let r := trimSuffix sep (dedupSep sep (replElems alnum sep true title))
  if pre.isPrefixOf r then r else pre ++ r

/-- Go `strconv.Itoa` of a natural number. -/
def itoa (n : Nat) : Text := Nat.toDigits 10 n

/-- What an identifier refers to (types.go:41 `ElementReferences`): a section title, or the title of some
other block. -/
inductive RefTitle where
  | sect (title : List TElem)
  | block (n : Nat)
deriving Repr

/-- types.go:41 `ElementReferences`, a map, as the list of its assignments, latest first. -/
abbrev Refs := List (Text × RefTitle)

/-- `refs[id]`. -/
def Refs.get : Refs → Text → Option RefTitle
  | [], _ => none
  | (k, v) :: m, id => if k = id then some v else Refs.get m id

/-- The method `Reference` of the blocks, e.g. types.go:868-880, 1816-1822, 2399-2411: record the identifiers of a
block and of the blocks in it. -/
def addRefs (refs : Refs) (rs : List (Text × Nat)) : Refs := rs.foldl (fun m p => (p.1, RefTitle.block p.2) :: m) refs

/-- types.go:2529-2535: the `i`-th candidate. -/
def candidate (base : Text) (i : Nat) : Text := if i = 1 then base else base ++ '_' :: itoa i

/-- types.go:2528-2541: the unbounded loop over the candidates, with a bound on the number of rounds;
`none` when the bound does not suffice. -/
def resolveLoop (refs : Refs) (base : Text) : Nat → Nat → Option Text
  | 0, _ => none
  | n + 1, i => if (refs.get (candidate base i)).isSome then resolveLoop refs base n (i + 1) else some (candidate base i)

/-- attributes.go:534-547 `GetAsStringWithDefault`; `.other 0` is nil. -/
def getAsStringWithDefault (fmt : Val → Text) (attrs : AMap Val) (k : String) (dflt : Text) : Text :=
  match AMap.get attrs k with
  | none => dflt
  | some (.other 0) => []
  | some (.str s) => s
  | some v => fmt v

/-- attributes.go:507-518 `GetAsIntWithDefault`. -/
def getAsIntWithDefault (attrs : AMap Val) (k : String) (dflt : Int) : Int :=
  match AMap.get attrs k with
  | some (.int i) => i
  | some (.str s) => (atoi s).getD dflt
  | _ => dflt

/-- context.go:106-111 `getAsIntWithDefault`. -/
def CtxAttrs.getAsIntWithDefault (a : CtxAttrs) (k : String) (dflt : Int) : Int :=
  if (AMap.get a.imm k).isSome then Verif.getAsIntWithDefault a.imm k dflt
  else Verif.getAsIntWithDefault a.doc k dflt

/-- types.go:2545-2563 `resolveID`: the explicit identifier, or the one derived from the title. -/
def baseID (alnum : Char → Bool) (fmt : Val → Text) (attrs : AMap Val) (s : Sec) : Text :=
  if s.id ≠ [] then s.id
  else titleID alnum (getAsStringWithDefault fmt attrs "idprefix" ['_'])
    (getAsStringWithDefault fmt attrs "idseparator" ['_']) s.title

/-- types.go:2523-2542 `ResolveID`: the identifier given to the section. That the bound on the number of
rounds suffices is `Verif.C14.terminates`. -/
def resolveID (alnum : Char → Bool) (fmt : Val → Text) (attrs : AMap Val) (refs : Refs) (s : Sec) : Text :=
  (resolveLoop refs (baseID alnum fmt attrs s) (refs.length + 1) 1).getD []

/-- The state of the loop, document_processing_aggregate.go:27-35. -/
structure AState where
  attrs : CtxAttrs
  refs : Refs
  agg : Agg
  toc : Forest Toc
  maxDepth : Int

/-- document_processing_aggregate.go:27-35. -/
def AState.init (attrs : CtxAttrs) : AState := ⟨attrs, [], Agg.init, .nil, attrs.getAsIntWithDefault "toclevels" 2⟩

/-- document_processing_aggregate.go:46-54 and 60-67: a declaration, in the body or in a header. -/
def AState.declare (st : AState) (n : String) (v : Val) : AState :=
  let attrs := st.attrs.set n v
  { st with attrs := attrs,
            maxDepth := if n = "toclevels" then attrs.getAsIntWithDefault "toclevels" 2 else st.maxDepth }

/-- document_processing_aggregate.go:59-70: one element of a header. -/
def AState.headerElem (st : AState) : HElem → AState
  | .decl n v => st.declare n v
  | .reset n => { st with attrs := st.attrs.unset n }
  | .other _ => st

/-- document_processing_aggregate.go:44-92: one element. -/
def aggStep (alnum : Char → Bool) (fmt : Val → Text) (st : AState) (e : Elem) : AState :=
  match e with
  | .decl n v => { st.declare n v with agg := st.agg.append e }
  | .front a => { st with attrs := st.attrs.setAll a, agg := st.agg.append e }
  | .header _ es => { es.foldl AState.headerElem st with agg := st.agg.append e }
  | .reset n => { st with attrs := st.attrs.unset n, agg := st.agg.append e }
  | .blank => { st with agg := st.agg.append e }
  | .comment => { st with agg := st.agg.append e }
  | .sect s =>
    let id := resolveID alnum fmt st.attrs.all st.refs s
    { st with
      toc := tocAdd st.maxDepth ⟨id, s.level⟩ st.toc
      agg := st.agg.append (.sect { s with id := id })
      refs := if id ≠ [] ∧ s.titled then (id, .sect s.title) :: st.refs else st.refs }
  | .block _ rs =>
    { st with
      agg := st.agg.append e
      refs := addRefs st.refs rs }

/-- document_processing_aggregate.go:26-109 `aggregate` on the elements of the (error-free) fragments. -/
def aggregateDoc (alnum : Char → Bool) (fmt : Val → Text) (attrs : CtxAttrs) (es : List Elem) : AState :=
  es.foldl (aggStep alnum fmt) (AState.init attrs)

/-! Cross references -/

/-- types.go:1877-1880 `InternalCrossReference.ID`: a plain string or a list of elements (`Reduce`). -/
inductive XrefID where
  | str (t : Text)
  | elems (es : List TElem)

/-- types.go:1891-1917 `InternalCrossReference.ResolveID`. -/
def resolveXref (alnum : Char → Bool) (fmt : Val → Text) (attrs : AMap Val) : XrefID → Text
  | .elems es => titleID alnum (getAsStringWithDefault fmt attrs "idprefix" ['_'])
      (getAsStringWithDefault fmt attrs "idseparator" ['_']) es
  | .str t =>
    if t.contains ' ' then titleID alnum (getAsStringWithDefault fmt attrs "idprefix" ['_'])
      (getAsStringWithDefault fmt attrs "idseparator" ['_']) [.str t]
    else t

/-- types.go:1879 `InternalCrossReference.Label`: absent, a plain string, or a list of elements. -/
inductive XLabel where
  | none
  | str (t : Text)
  | elems (es : List TElem)

/-- What is displayed for a cross reference, before rendering of a title. -/
inductive Shown where
  | text (t : Text)
  | title (r : RefTitle)

/-- pkg/renderer/sgml/cross_reference.go:14-54: the label of a cross reference. -/
def xrefLabel (refs : Refs) (id : Text) : XLabel → Shown
  | .str t => .text t
  | _ => match refs.get id with
    | some r => .title r
    | none => .text ('[' :: id ++ [']'])

end Verif
