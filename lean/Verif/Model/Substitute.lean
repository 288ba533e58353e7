import Verif.Model.AttrRefs
import Verif.Model.Subs
import Verif.Model.Table
import Verif.Model.Placeholders
/-!
Model of the substitution stage: pkg/parser/document_processing_apply_substitutions.go, all of it except the channels (C10).

The elements of a document before and after this stage are values of one type `Any` (Go's `interface{}`), with as much structure
as the stage looks at. The generated parser, the plain text renderer and the rule for attributions of Markdown quotes are
parameters (`World`). A Go map is a list of entries; the order of the list is the order in which Go iterates over it.

Line numbers without a file are those of that file. The loops over inline content (`replaceOne`, `inlineOne`) treat the kinds of
elements that inline content consists of; other elements with content do not occur there and are left as they are.

Left out: logging; the type checks of `SetElements` of table rows (types.go:4100-4111), which never hold the elements that are
replaced here; the sharing of slices between the document and the context (attribute values are not modified after they are set);
the spare capacity of `ctx.opts` that appended options may overwrite (they are used before the next append).
-/
namespace Verif.Walk
open Verif.AttrRefs (CVal)
open Verif.Subs (Sub)

/-- types.go:2228-2260: the kinds of delimited blocks. -/
inductive Kind where
  | comment | example_ | fenced | listing | literal | markdownQuote | pass | quote | sidebar | verse | open_
deriving DecidableEq, Repr

/-- A Go value: an element of a document, an inline element, or an attribute value. -/
inductive Any where
  | nil
  /-- a `string` -/
  | text (t : Text)
  /-- another plain value (a number, a boolean, …) -/
  | plain (n : Nat)
  /-- types.go:487 `*DocumentAuthorFullName` -/
  | fullName (first middle last : Text)
  /-- `[]interface{}` -/
  | slice (es : List Any)
  /-- types/attributes.go:381 `Roles` -/
  | roles (es : List Any)
  /-- types/attributes.go `Options` -/
  | options (es : List Any)
  /-- types.go:661 `AttributeReference` -/
  | ref (name : String)
  /-- types.go:687 `CounterSubstitution` -/
  | counter (name : String) (value : Option CVal) (hidden : Bool)
  /-- types.go:1843 `StringElement` -/
  | str (t : Text)
  /-- `RawLine` -/
  | raw (t : Text)
  /-- `SpecialCharacter` -/
  | special (t : Text)
  /-- the `Symbol` named `" -- "` -/
  | dash
  /-- types.go:3694 `ElementPlaceHolder` -/
  | holder (r : Text)
  /-- an `*Attribute` among inline elements: the inline id of a section title -/
  | anchor (v : Any)
  /-- a `*TableColumn` with its multiplier -/
  | column (m : Int)
  /-- an element without attributes and elements: a blank line, a symbol, an icon, … -/
  | leaf (n : Nat)
  /-- an element with content that is not `WithElements`: a `Footnote`, the label of an `InternalCrossReference`,
  an `IndexTerm` -/
  | closed (n : Nat) (es : List Any)
  /-- types.go:2843 `InlinePassthrough`, not `WithElements` either -/
  | passthrough (es : List Any)
  /-- an element `WithLocation`: a link, an image, an inter-document cross reference; its attributes and the path -/
  | located (n : Nat) (attrs : List (String × Any)) (loc : Option Any)
  /-- an element `WithElements` treated by the default case: `QuotedText`, `ListElements`, the elements of lists except labeled
  ones -/
  | group (n : Nat) (attrs : List (String × Any)) (es : List Any)
  /-- types.go:1736 `Paragraph` -/
  | paragraph (attrs : List (String × Any)) (es : List Any)
  /-- types.go:2262 `DelimitedBlock` -/
  | block (k : Kind) (attrs : List (String × Any)) (es : List Any)
  /-- types.go:1583 `LabeledListElement` -/
  | labeled (style : Nat) (attrs : List (String × Any)) (term es : List Any)
  /-- types.go:1020 `ListContinuation` -/
  | continuation (offset : Nat) (e : Any)
  /-- types.go:4114 `TableCell` -/
  | cell (format : Nat) (es : List Any)
  /-- types.go:3714 `Table`; the rows are lists of cells -/
  | table (attrs : List (String × Any)) (header : Option (List Any)) (rows : List (List Any)) (footer : Option (List Any))
  /-- types.go:2440 `Section`; it has no elements yet -/
  | section (level : Nat) (attrs : List (String × Any)) (title : List Any)
  /-- types.go:264 `DocumentHeader` -/
  | header (attrs : List (String × Any)) (title : List Any) (es : List Any)
  /-- types.go:620 `AttributeDeclaration` -/
  | declare (name : String) (value : Any)
  /-- types.go:643 `AttributeReset` -/
  | reset (name : String)
  /-- types.go:421 `DocumentAuthors`: first, middle and last name, and email of each -/
  | authors (l : List (Text × Text × Text × Text))
  /-- types.go:528 `DocumentRevision`: number, date and remark -/
  | revision (number date remark : Text)
  /-- types.go `FrontMatter` -/
  | frontMatter (attrs : List (String × Any))

/-- types/attributes.go:179-182 `Attributes`. -/
abbrev Attrs := List (String × Any)

/-! ### Parser options -/

/-- The entry points of the parser used in this stage. -/
inductive Entry where
  | documentFragment | normalGroup | attributeStructuredValue | tableColumnsAttribute
  /-- the first rule of the grammar, if no entry point is given -/
  | first
deriving DecidableEq, Repr

/-- parser.go:72497-72544: the options `Entrypoint` and `GlobalStore`, for the keys that inline content depends on:
the user macros, the substitutions and the flag for experimental macros. -/
inductive Opt where
  | entry (e : Entry)
  | macros
  | subs (s : List Sub)
  | experimental (b : Bool)
deriving DecidableEq, Repr

/-- What a parser is set to. -/
structure Settings where
  entry : Entry
  macros : Bool
  subs : List Sub
  experimental : Bool
deriving DecidableEq, Repr

/-- parser.go:72497-72544: an option overrides what was set before. -/
def Opt.apply (s : Settings) : Opt → Settings
  | .entry e => { s with entry := e }
  | .macros => { s with macros := true }
  | .subs l => { s with subs := l }
  | .experimental b => { s with experimental := b }

/-- `newParser`: the options are applied in order. -/
def settle (opts : List Opt) : Settings := opts.foldl Opt.apply ⟨.first, false, [], false⟩

/-! ### Context and parameters -/

/-- context.go:12-19 `ParseContext`, as far as this stage uses it: the attributes given through the API, those of the document,
the counters and the options. -/
structure Ctx where
  api : AMap Any
  doc : AMap Any
  counters : AMap CVal
  opts : List Opt

/-- context.go:21-41 `NewParseContext`. -/
def newCtx (api : AMap Any) : Ctx := ⟨api, [], [], [.entry .documentFragment, .macros, .subs Subs.normal]⟩

/-- context.go:98-104 `get`. -/
def Ctx.get (c : Ctx) (k : String) : Option Any :=
  match AMap.get c.api k with
  | some v => some v
  | none => AMap.get c.doc k

/-- context.go:113-120 `set`. -/
def Ctx.set (c : Ctx) (k : String) (v : Any) : Ctx := { c with doc := AMap.set c.doc k v }

/-- context.go:122-126 `unset`. -/
def Ctx.unset (c : Ctx) (k : String) : Ctx := { c with doc := AMap.del c.doc k }

/-- context.go:128-134 `setAll`. -/
def Ctx.setAll (c : Ctx) (a : Attrs) : Ctx := { c with doc := AMap.setAll c.doc a }

/-- How the stage can end without a result: with an error, or with a panic (which ends the program, as the stage runs in a
goroutine of its own). -/
inductive Bad where
  | error | panic
deriving DecidableEq, Repr

/-- The parts that are not modelled here. -/
structure World where
  /-- parser_ext.go:16-29 `parseContent`; `none` is an error. -/
  parse : Settings → Text → Option (List Any)
  /-- sgml.RenderPlainText -/
  plainText : List Any → Option Text
  /-- line 440: the rule `MarkdownQuoteAttribution` (parser.peg:988-991) -/
  attribution : Text → Option Text
  /-- `fmt.Sprintf("%v", …)` of a value that is neither nil nor a string -/
  format : Any → Text

/-- An error for an absent result. -/
def orError {α : Type} : Option α → Except Bad α
  | some a => .ok a
  | none => .error .error

/-! ### Merging -/

/-- types_utils.go:52-57: the buffered text as an element, if there is any. -/
def flush (buf : Text) : List Any := if buf = [] then [] else [.str buf]

/-- types_utils.go:40-49: the same before a `" -- "` symbol. -/
def flushDash (buf : Text) : List Any := if buf = [] then [] else [.str (Merge.trimOne buf)]

/-- types_utils.go:12-59 `merge`, on a sequence without slices. -/
def flatLoop (result : List Any) (buf : Text) : List Any → List Any
  | [] => result ++ flush buf
  | .nil :: es => flatLoop result buf es
  | .text t :: es => flatLoop result (buf ++ t) es
  | .str t :: es => flatLoop result (buf ++ t) es
  | .dash :: es => flatLoop (result ++ flushDash buf ++ [.dash]) [] es
  | e :: es => flatLoop (result ++ flush buf ++ [e]) [] es

/-- types_utils.go:12-59 `merge`: the loop, with the elements that are slices merged before. -/
def mergeLoop (result : List Any) (buf : Text) : List Any → List Any
  | [] => result ++ flush buf
  | .nil :: es => mergeLoop result buf es
  | .text t :: es => mergeLoop result (buf ++ t) es
  | .str t :: es => mergeLoop result (buf ++ t) es
  | .dash :: es => mergeLoop (result ++ flushDash buf ++ [.dash]) [] es
  | .slice s :: es => mergeLoop (flatLoop [] [] (result ++ flush buf ++ s)) [] es
  | e :: es => mergeLoop (result ++ flush buf ++ [e]) [] es

mutual
/-- types_utils.go:25-36: slices among the elements are merged first; empty ones are skipped, as nil. -/
def inner : Any → Any
  | .slice [] => .nil
  | .slice (e :: s) => .slice (mergeLoop [] [] (inner e :: inners s))
  | e => e
/-- The same for all elements. -/
def inners : List Any → List Any
  | [] => []
  | e :: es => inner e :: inners es
end

/-- types_utils.go:12-59 `merge`. -/
def merge (es : List Any) : List Any := mergeLoop [] [] (inners es)

/-- types_utils.go:98-116 `Reduce` on a slice (without options). -/
def reduce (es : List Any) : Any :=
  match merge es with
  | [] => .nil
  | [.str t] => .text t
  | es => .slice es

/-! ### References and counters -/

/-- types.go:513-526 `FullName`. -/
def fullNameText (first middle last : Text) : Text :=
  first ++ (if middle = [] then [] else ' ' :: middle) ++ (if last = [] then [] else ' ' :: last)

/-- Lines 550-565 `valueForAttributeRef`: the value, and whether the attribute is set. -/
def valueForRef (W : World) (get : String → Option Any) (name : String) : Except Bad (Any × Bool) :=
  match get name with
  | none => .ok (.text ("{".toList ++ name.toList ++ "}".toList), false)
  | some (.slice es) => (orError (W.plainText es)).map (fun t => (.text t, true))
  | some (.fullName f m l) => .ok (.text (fullNameText f m l), true)
  | some v => .ok (v, true)

/-- Lines 462-469 and 528-535: the element for a value. -/
def elementFor : Any → Any
  | .text t => .str t
  | v => v

mutual
/-- Lines 381-399: one element of a slice. -/
def slicedItem (W : World) (get : String → Option Any) : Any → Except Bad Any
  | .str t => .ok (.text t)
  | .ref name => (valueForRef W get name).map Prod.fst
  | .slice es => match slicedItems W get es with
    | .ok l => .ok (reduce l)
    | .error b => .error b
  | e => .ok e
/-- Lines 379-405: the loop of `replaceAttributeRefsInSlicedValue`. -/
def slicedItems (W : World) (get : String → Option Any) : List Any → Except Bad (List Any)
  | [] => .ok []
  | e :: es => match slicedItem W get e with
    | .error b => .error b
    | .ok v => match slicedItems W get es with
      | .error b => .error b
      | .ok vs => .ok (v :: vs)
end

/-- Lines 379-405 `replaceAttributeRefsInSlicedValue`. -/
def slicedValue (W : World) (get : String → Option Any) (es : List Any) : Except Bad Any := (slicedItems W get es).map reduce

mutual
/-- Lines 355-377 `replaceAttributeRefsInValue`. -/
def replaceValue (W : World) (get : String → Option Any) : Any → Except Bad Any
  | .slice es => slicedValue W get es
  | .roles l => match replaceValues W get l with
    | .ok l => .ok (.roles l)
    | .error b => .error b
  | .options l => match replaceValues W get l with
    | .ok l => .ok (.options l)
    | .error b => .error b
  | v => .ok v
/-- Lines 361-365 and 368-372: the loops over roles and options. -/
def replaceValues (W : World) (get : String → Option Any) : List Any → Except Bad (List Any)
  | [] => .ok []
  | v :: l => match replaceValue W get v with
    | .error b => .error b
    | .ok v => match replaceValues W get l with
      | .error b => .error b
      | .ok l => .ok (v :: l)
end

/-- Lines 345-353 `replaceAttributeRefsInAttributeValues`, in the order of the list. -/
def replaceAttrs (W : World) (get : String → Option Any) : Attrs → Except Bad Attrs
  | [] => .ok []
  | (k, v) :: a => match replaceValue W get v with
    | .error b => .error b
    | .ok v => match replaceAttrs W get a with
      | .error b => .error b
      | .ok a => .ok ((k, v) :: a)

/-- Lines 519-548 `replaceAttributeRefsInElements`. -/
def replacePath (W : World) (get : String → Option Any) (cs : AMap CVal) : List Any → Except Bad (List Any × AMap CVal)
  | [] => .ok ([], cs)
  | .ref name :: es => match valueForRef W get name with
    | .error b => .error b
    | .ok (v, _) => match replacePath W get cs es with
      | .error b => .error b
      | .ok (es, cs) => .ok (elementFor v :: es, cs)
  | .counter name v h :: es =>
    let r := AttrRefs.valueForCounter cs name v h
    match replacePath W get r.1 es with
    | .error b => .error b
    | .ok (es, cs) => .ok (.str r.2 :: es, cs)
  | e :: es => match replacePath W get cs es with
    | .error b => .error b
    | .ok (es, cs) => .ok (e :: es, cs)

/-- Lines 203-212 and 496-505: the references in the path of a location. -/
def replaceLocation (W : World) (get : String → Option Any) (cs : AMap CVal) : Option Any → Except Bad (Option Any × AMap CVal)
  | some (.slice es) => match replacePath W get cs es with
    | .error b => .error b
    | .ok (es, cs) => .ok (some (reduce es), cs)
  | l => .ok (l, cs)

/-! ### Parsing again -/

/-- Lines 662-681: the text of an element that is serialized as text. -/
def textOf : Any → Option Text
  | .raw t => some t
  | .text t => some t
  | .str t => some t
  | .special t => some t
  | _ => none

/-- Lines 662-681: the loop of `serialize`, with the elements behind the placeholders numbered `n + 1`, `n + 2`, … -/
def serializeLoop (n : Nat) : List Any → Text × List (Text × Any)
  | [] => ([], [])
  | e :: es => match textOf e with
    | some t => let r := serializeLoop n es; (t ++ r.1, r.2)
    | none => let r := serializeLoop (n + 1) es
      (Placeholders.placeholderText (itoa (n + 1)) ++ r.1, (itoa (n + 1), e) :: r.2)

/-- Lines 654-687 `serialize`. -/
def serialize : Any → Except Bad (Text × List (Text × Any))
  | .text t => .ok (t, [])
  | .slice es => .ok (serializeLoop 0 es)
  | _ => .error .error

mutual
/-- Lines 754-767: one element of `restore`; the elements `WithElements`. -/
def restoreOne (store : List (Text × Any)) : Any → Any
  | .holder r => (store.lookup r).getD .nil
  | .group n a es => .group n a (restore store es)
  | .paragraph a es => .paragraph a (restore store es)
  | .block k a es => .block k a (restore store es)
  | .labeled n a t es => .labeled n a t (restore store es)
  | .cell f es => .cell f (restore store es)
  | .header a t es => .header a t (restore store es)
  | .table a h rows f => .table a h (restoreRows store rows) f
  | e => e
/-- Lines 753-769 `restore`. -/
def restore (store : List (Text × Any)) : List Any → List Any
  | [] => []
  | e :: es => restoreOne store e :: restore store es
/-- The rows of a table (types.go:3780-3786). -/
def restoreRows (store : List (Text × Any)) : List (List Any) → List (List Any)
  | [] => []
  | r :: rs => restore store r :: restoreRows store rs
end

/-- Lines 606-652 `parseWithSubstitutions`. -/
def parseWith (W : World) (content : Any) (subs : List Sub) (opts : List Opt) : Except Bad (List Any) :=
  match serialize content with
  | .error b => .error b
  | .ok (t, store) =>
    if t = [] then .ok []
    else match W.parse (settle (opts ++ [.subs subs])) t with
      | none => .error .error
      | some es => .ok (restore store es)

/-- Lines 509-516: the second phase, if a reference was replaced and there are substitutions left. -/
def finish (W : World) (phase2 : Option (List Sub)) (replaced : Bool) (es : List Any) : Except Bad (List Any) :=
  match phase2 with
  | some subs => if replaced then parseWith W (.slice es) subs [.entry .normalGroup] else .ok es
  | none => .ok es

/-- The result of the loop of lines 455-508. -/
structure Looped where
  els : List Any
  counters : AMap CVal
  replaced : Bool

mutual
/-- Lines 455-508: one element, with the counters and whether a reference was replaced; lines 479-490 for elements
`WithElements`, 491-506 for those `WithLocation`. -/
def replaceOne (W : World) (get : String → Option Any) (phase2 : Option (List Sub)) (cs : AMap CVal) :
    Any → Except Bad (Any × AMap CVal × Bool)
  | .ref name => match valueForRef W get name with
    | .error b => .error b
    | .ok (v, r) => .ok (elementFor v, cs, r)
  | .counter name v h => let r := AttrRefs.valueForCounter cs name v h; .ok (.str r.2, r.1, false)
  | .group n a es => match replaceAttrs W get a with
    | .error b => .error b
    | .ok a => match replaceLoop W get phase2 cs es with
      | .error b => .error b
      | .ok r => match finish W phase2 r.replaced r.els with
        | .error b => .error b
        | .ok es => .ok (.group n a es, r.counters, false)
  | .located n a l => match replaceAttrs W get a with
    | .error b => .error b
    | .ok a => match replaceLocation W get cs l with
      | .error b => .error b
      | .ok (l, cs) => .ok (.located n a l, cs, false)
  | e => .ok (e, cs, false)
/-- Lines 454-508: the loop. -/
def replaceLoop (W : World) (get : String → Option Any) (phase2 : Option (List Sub)) (cs : AMap CVal) :
    List Any → Except Bad Looped
  | [] => .ok ⟨[], cs, false⟩
  | e :: es => match replaceOne W get phase2 cs e with
    | .error b => .error b
    | .ok (e, cs, r1) => match replaceLoop W get phase2 cs es with
      | .error b => .error b
      | .ok r => .ok ⟨e :: r.els, r.counters, r1 || r.replaced⟩
end

/-- Lines 453-517 `replaceAttributeRefsInElementsAndReparse`. -/
def replaceAndReparse (W : World) (get : String → Option Any) (phase2 : Option (List Sub)) (cs : AMap CVal) (es : List Any) :
    Except Bad (List Any × AMap CVal) :=
  match replaceLoop W get phase2 cs es with
  | .error b => .error b
  | .ok r => match finish W phase2 r.replaced r.els with
    | .error b => .error b
    | .ok es => .ok (es, r.counters)

/-- Lines 407-430 `applySubstitutionsOnSlice`; the new elements and counters. -/
def substSlice (W : World) (c : Ctx) (subs : List Sub) (opts : List Opt) (es : List Any) : Except Bad (List Any × AMap CVal) :=
  if es.isEmpty then .ok ([], c.counters)
  else match parseWith W (.slice es) subs (c.opts ++ opts) with
    | .error b => .error b
    | .ok es => if Sub.attributes ∈ subs then replaceAndReparse W c.get (Subs.split subs) c.counters es else .ok (es, c.counters)

/-! ### Attributes of blocks -/

mutual
/-- Lines 698-721: the text of one element as plain text. -/
def plainItem : Any → Option Text
  | .slice es => plainItems es
  | .raw t => some t
  | .str t => some t
  | .special t => some t
  | .passthrough es => plainItems es
  | _ => none
/-- Lines 697-722: the loop. -/
def plainItems : List Any → Option Text
  | [] => some []
  | e :: es => match plainItem e, plainItems es with
    | some t, some u => some (t ++ u)
    | _, _ => none
end

/-- Lines 689-730 `serializePlainText`. -/
def plainSerialized : Any → Option Text
  | .text t => some t
  | .slice es => plainItems es
  | _ => none

/-- Lines 269-303: the new value of an attribute. Titles (and labels of cross references) are parsed with macros, the text of a
link without, column definitions by their own rule. -/
def reparseValue (W : World) (ctxOpts opts : List Opt) (k : String) (v : Any) : Except Bad Any :=
  if k = "title" ∨ k = "xrefLabel" then
    (parseWith W v (Subs.attributeSubs ++ [.macros]) (ctxOpts ++ [.entry .attributeStructuredValue] ++ opts)).map reduce
  else if k = "text" then
    (parseWith W v Subs.attributeSubs (ctxOpts ++ [.entry .attributeStructuredValue] ++ opts)).map reduce
  else if k = "cols" then
    match plainSerialized v with
    | none => .error .error
    | some t => (parseWith W (.text t) Subs.attributeSubs (ctxOpts ++ [.entry .tableColumnsAttribute] ++ opts)).map reduce
  else .ok v

/-- Lines 266-304 `reparseAttributes`, in the order of the list. -/
def reparseAttrs (W : World) (ctxOpts opts : List Opt) : Attrs → Except Bad Attrs
  | [] => .ok []
  | (k, v) :: a => match reparseValue W ctxOpts opts k v with
    | .error b => .error b
    | .ok v => match reparseAttrs W ctxOpts opts a with
      | .error b => .error b
      | .ok a => .ok ((k, v) :: a)

/-- Lines 219-224, 128-133, 147-152, 196-201: references replaced, then some values parsed again. -/
def substAttrs (W : World) (c : Ctx) (opts : List Opt) (a : Attrs) : Except Bad Attrs :=
  match replaceAttrs W c.get a with
  | .error b => .error b
  | .ok a => reparseAttrs W c.opts opts a

/-! ### Attributes of inline elements -/

/-- The result of `reparseInlineAttributes` on a value, with the substitutions that are left. -/
structure Inlined (α : Type) where
  val : α
  subs : List Sub

/-- Lines 310-329: the loop over the attributes; the text of a link removes the macros for all that follows. -/
def inlineAttrs (W : World) (ctxOpts opts : List Opt) (subs : List Sub) : Attrs → Except Bad (Inlined Attrs)
  | [] => .ok ⟨[], subs⟩
  | (k, v) :: a =>
    if k = "title" ∨ k = "xrefLabel" then
      match parseWith W v subs (ctxOpts ++ opts ++ [.entry .attributeStructuredValue]) with
      | .error b => .error b
      | .ok es => match inlineAttrs W ctxOpts opts subs a with
        | .error b => .error b
        | .ok r => .ok ⟨(k, reduce es) :: r.val, r.subs⟩
    else if k = "text" then
      match parseWith W v (Subs.removeAll subs [.macros]) (ctxOpts ++ opts ++ [.entry .attributeStructuredValue]) with
      | .error b => .error b
      | .ok es => match inlineAttrs W ctxOpts opts (Subs.removeAll subs [.macros]) a with
        | .error b => .error b
        | .ok r => .ok ⟨(k, reduce es) :: r.val, r.subs⟩
    else match inlineAttrs W ctxOpts opts subs a with
      | .error b => .error b
      | .ok r => .ok ⟨(k, v) :: r.val, r.subs⟩

mutual
/-- Lines 306-343 `reparseInlineAttributes`; elements that are not `WithAttributes` are skipped (lines 253, 335). -/
def inlineOne (W : World) (ctxOpts opts : List Opt) (subs : List Sub) : Any → Except Bad (Inlined Any)
  | .group n a es => match inlineAttrs W ctxOpts opts subs a with
    | .error b => .error b
    | .ok r => match inlineAll W ctxOpts opts r.subs es with
      | .error b => .error b
      | .ok q => .ok ⟨.group n r.val q.val, q.subs⟩
  | .located n a l => match inlineAttrs W ctxOpts opts subs a with
    | .error b => .error b
    | .ok r => .ok ⟨.located n r.val l, r.subs⟩
  | e => .ok ⟨e, subs⟩
/-- Lines 252-258 and 334-340: the loops. -/
def inlineAll (W : World) (ctxOpts opts : List Opt) (subs : List Sub) : List Any → Except Bad (Inlined (List Any))
  | [] => .ok ⟨[], subs⟩
  | e :: es => match inlineOne W ctxOpts opts subs e with
    | .error b => .error b
    | .ok r => match inlineAll W ctxOpts opts r.subs es with
      | .error b => .error b
      | .ok q => .ok ⟨r.val :: q.val, q.subs⟩
end

/-! ### Which substitutions -/

/-- types/attributes.go:498-504 `GetAsString`. -/
def getText (a : Attrs) (k : String) : Option Text :=
  match AMap.get a k with
  | some (.text t) => some t
  | _ => none

/-- types/attributes.go:536-547 `GetAsStringWithDefault` with the empty default. -/
def getTextD (W : World) (a : Attrs) (k : String) : Text :=
  match AMap.get a k with
  | none => []
  | some .nil => []
  | some (.text t) => t
  | some v => W.format v

/-- document_substitutions.go:136-145: what the default substitutions of a delimited block depend on. -/
def blockOf : Kind → Subs.Block
  | .comment => .comment
  | .example_ => .example_
  | .fenced => .fenced
  | .listing => .listing
  | .literal => .literal
  | .markdownQuote => .markdownQuote
  | .pass => .pass
  | .quote => .quote
  | .sidebar => .sidebar
  | .verse => .verse
  | .open_ => .open_

/-- document_substitutions.go:146-155: the same for a paragraph, depending on its style (types.go:2234, 2248). -/
def paragraphOf (style : Text) : Subs.Block :=
  if style = "listing".toList then .listingParagraph
  else if style = "pass".toList then .passParagraph
  else .otherParagraph

/-- Line 225 `newSubstitutions`. -/
def subsFor (b : Subs.Block) (a : Attrs) : Except Bad (List Sub) := orError (Subs.newSubstitutions b (getText a "subs"))

/-! ### Document header -/

/-- types.go:455-460 `key`. -/
def authorKey (k : String) (i : Nat) : String := if i = 0 then k else k ++ "_" ++ toString (i + 1)

/-- types.go:502-508 and 462-467 `Initials`: the first byte of each part; a character that is not ASCII is left as a whole here. -/
def initials (first middle last : Text) : Text := first.take 1 ++ middle.take 1 ++ last.take 1

/-- types.go:438-449: the attributes of one author. -/
def expandAuthor (i : Nat) (p : Text × Text × Text × Text) : Attrs :=
  [(authorKey "author" i, .text (fullNameText p.1 p.2.1 p.2.2.1)),
   (authorKey "authorinitials" i, .text (initials p.1 p.2.1 p.2.2.1)),
   (authorKey "firstname" i, .text p.1)] ++
  (if p.2.1 = [] then [] else [(authorKey "middlename" i, .text p.2.1)]) ++
  (if p.2.2.1 = [] then [] else [(authorKey "lastname" i, .text p.2.2.1)]) ++
  (if p.2.2.2 = [] then [] else [(authorKey "email" i, .text p.2.2.2)])

/-- types.go:436-449: the attributes of the authors from number `i` on. -/
def expandFrom (i : Nat) : List (Text × Text × Text × Text) → Attrs
  | [] => []
  | p :: l => expandAuthor i p ++ expandFrom (i + 1) l

/-- types.go:433-454 `Expand`. -/
def expandAuthors (l : List (Text × Text × Text × Text)) : Attrs := ("authors", .authors l) :: expandFrom 0 l

/-- types.go:575-592 `Expand`. -/
def expandRevision (number date remark : Text) : Attrs :=
  ("revision", .revision number date remark) ::
  ((if number = [] then [] else [("revnumber", .text number)]) ++
   (if date = [] then [] else [("revdate", .text date)]) ++
   (if remark = [] then [] else [("revremark", .text remark)]))

/-- types.go:316-353 `Authors`: the authors given on the author line; otherwise one author with the attributes `author` and
`email`; an email before the author has no name to go with (`result[0].DocumentAuthorFullName` is nil): panic. -/
def authorsOf : List Any → Option (Bool × Text × Text) → Except Bad (Option (List (Text × Text × Text × Text)))
  | [], none => .ok none
  | [], some (named, f, e) => if named then .ok (some [(f, [], [], e)]) else .error .panic
  | .declare "authors" (.authors l) :: _, _ => .ok (some l)
  | .declare "email" (.text e) :: es, none => authorsOf es (some (false, [], e))
  | .declare "email" (.text e) :: es, some (named, f, _) => authorsOf es (some (named, f, e))
  | .declare "author" (.text a) :: es, none => authorsOf es (some (true, a, []))
  | .declare "author" (.text a) :: es, some (named, _, e) => if named then authorsOf es (some (true, a, e)) else .error .panic
  | _ :: es, r => authorsOf es r

/-- types.go:355-364 `Revision`. -/
def revisionOf : List Any → Option (Text × Text × Text)
  | [] => none
  | .declare "revision" (.revision n d r) :: _ => some (n, d, r)
  | _ :: es => revisionOf es

/-! ### Titles -/

mutual
/-- types_utils.go:146-165 `stringify`. -/
def stringify (W : World) : Any → Text
  | .slice es => stringifyAll W es
  | .text t => t
  | .str t => t
  | .special t => t
  | .ref n => "{".toList ++ n.toList ++ "}".toList
  | v => W.format v
/-- types_utils.go:149-152: the loop. -/
def stringifyAll (W : World) : List Any → Text
  | [] => []
  | e :: es => stringify W e ++ stringifyAll W es
end

/-- `strings.TrimRight(s, " ")`. -/
def trimSpaces (t : Text) : Text := (t.reverse.dropWhile (· == ' ')).reverse

/-- types_utils.go:168-182 `TrimTrailingSpaces`. -/
def trimTitle (es : List Any) : List Any :=
  match es.getLast? with
  | some (.str t) => if trimSpaces t = [] then es.dropLast else es.dropLast ++ [.str (trimSpaces t)]
  | _ => es

/-- types.go:2483-2497 `SetTitle` of a section: an inline id at the end becomes an attribute (types.go:2505-2511, attributes.go:235:
the key `id` is just set); an empty title panics. -/
def setSectionTitle (W : World) (a : Attrs) (title : List Any) : Except Bad (Attrs × List Any) :=
  match title.getLast? with
  | none => .error .panic
  | some (.anchor v) => .ok (AMap.set a "id" (.text (stringify W v)), trimTitle title.dropLast)
  | some _ => .ok (a, trimTitle title)

/-- Lines 134-142: the title of a section or of the document. -/
def substTitle (W : World) (c : Ctx) (title : List Any) : Except Bad (List Any × AMap CVal) :=
  replaceAndReparse W c.get (Subs.split Subs.header) c.counters title

/-! ### Tables -/

/-- types.go:3839-3842: the multipliers of the column definitions. -/
def multipliers : List Any → List Int
  | [] => []
  | .column m :: l => m :: multipliers l
  | _ :: l => multipliers l

/-- types/attributes.go:480-494 `HasOption`. -/
def hasOption (a : Attrs) (k : String) : Bool :=
  (match AMap.get a "options" with
   | some (.options l) => l.any (fun v => match v with
     | .text t => t == k.toList
     | _ => false)
   | _ => false) || (AMap.get a k).isSome

/-- Lines 155-157 and types.go:3837-3858: the cells are distributed anew if there are column definitions. -/
def organize (a : Attrs) (h : Option (List Any)) (rows : List (List Any)) (f : Option (List Any)) :
    Except Bad (Option (List Any) × List (List Any) × Option (List Any)) :=
  match AMap.get a "cols" with
  | some (.slice cols) =>
    match Table.setColumns (hasOption a "header") (hasOption a "footer") (multipliers cols) ⟨h, f, rows⟩ with
    | some t => .ok (t.header, t.rows, t.footer)
    | none => .error .panic
  | _ => .ok (h, rows, f)

/-! ### The walk -/

/-- Lines 432-451 `extractMarkdownQuoteAttribution`. -/
def splitAttribution (W : World) (es : List Any) : List Any × Text :=
  match es.getLast? with
  | some (.raw t) => match W.attribution t with
    | some a => (es.dropLast, a)
    | none => (es, [])
  | _ => (es, [])

/-- Lines 104-115 `applySubstitutionsOnAttributeDeclaration`. -/
def substDeclare (W : World) (c : Ctx) (name : String) (value : Any) : Except Bad (Any × Ctx) :=
  match replaceValue W c.get value with
  | .error b => .error b
  | .ok v =>
    let c := c.set name v
    .ok (.declare name v, if name = "experimental" then { c with opts := c.opts ++ [.experimental true] } else c)

/-- Lines 117-123 `applySubstitutionsOnAttributeReset`. -/
def substReset (c : Ctx) (name : String) : Ctx :=
  let c := c.unset name
  if name = "experimental" then { c with opts := c.opts ++ [.experimental false] } else c

/-- Lines 191-214 `applySubstitutionsOnWithLocation`. -/
def substLocated (W : World) (c : Ctx) (opts : List Opt) (n : Nat) (a : Attrs) (l : Option Any) : Except Bad (Any × Ctx) :=
  match substAttrs W c opts a with
  | .error b => .error b
  | .ok a => match replaceLocation W c.get c.counters l with
    | .error b => .error b
    | .ok (l, cs) => .ok (.located n a l, { c with counters := cs })

/-- Lines 216-229, 250-260: a paragraph. -/
def substParagraph (W : World) (c : Ctx) (opts : List Opt) (a : Attrs) (es : List Any) : Except Bad (Any × Ctx) :=
  match substAttrs W c opts a with
  | .error b => .error b
  | .ok a => match subsFor (paragraphOf (getTextD W a "style")) a with
    | .error b => .error b
    | .ok subs => match substSlice W c subs (opts ++ [.entry .normalGroup]) es with
      | .error b => .error b
      | .ok (es, cs) => match inlineAll W c.opts (opts ++ [.entry .normalGroup]) subs es with
        | .error b => .error b
        | .ok r => .ok (.paragraph a r.val, { c with counters := cs })

/-- Lines 235-248: a delimited block whose content is not a sequence of blocks. -/
def substVerbatim (W : World) (c : Ctx) (opts : List Opt) (k : Kind) (a : Attrs) (subs : List Sub) (es : List Any) :
    Except Bad (Any × Ctx) :=
  let s := if k = .markdownQuote then splitAttribution W es else (es, [])
  let a := if s.2 = [] then a else AMap.set a "quoteAuthor" (.text s.2)
  match substSlice W c subs (opts ++ [.entry .normalGroup]) s.1 with
  | .error b => .error b
  | .ok (es, cs) => .ok (.block k a es, { c with counters := cs })

/-- Line 237: the delimited blocks that contain blocks. -/
def Kind.compound : Kind → Bool
  | .example_ | .quote | .sidebar | .open_ => true
  | _ => false

mutual
/-- Lines 59-87 `applySubstitutionsOnElement`. -/
def substOne (W : World) (c : Ctx) (opts : List Opt) : Any → Except Bad (Any × Ctx)
  | .frontMatter a => .ok (.frontMatter a, c.setAll a)
  | .header a title es =>
    -- lines 89-101
    match substAll W c opts es with
    | .error b => .error b
    | .ok (es, c) => match authorsOf es none with
      | .error b => .error b
      | .ok authors =>
        let c := match authors with
          | some l => c.setAll (expandAuthors l)
          | none => c
        let c := match revisionOf es with
          | some (n, d, r) => c.setAll (expandRevision n d r)
          | none => c
        -- lines 125-143, types.go:381-383
        match substAttrs W c [] a with
        | .error b => .error b
        | .ok a => match substTitle W c title with
          | .error b => .error b
          | .ok (title, cs) => .ok (.header a title es, { c with counters := cs })
  | .declare name value => substDeclare W c name value
  | .reset name => .ok (.reset name, substReset c name)
  | .section level a title =>
    -- lines 125-143
    match substAttrs W c [] a with
    | .error b => .error b
    | .ok a => match substTitle W c title with
      | .error b => .error b
      | .ok (title, cs) => match setSectionTitle W a title with
        | .error b => .error b
        | .ok (a, title) => .ok (.section level a title, { c with counters := cs })
  | .table a h rows f =>
    -- lines 145-189; the cells keep their order when they are distributed over rows (C26), so they are substituted in the order
    -- they have, where the first ones are those of the new header, and distributed then
    match substAttrs W c [] a with
    | .error b => .error b
    | .ok a => match organize a h rows f with
      | .error b => .error b
      | .ok t =>
        let n := (t.1.getD []).length
        match substRow? W c opts n h with
        | .error b => .error b
        | .ok (h, c) => match substRows W c opts (n - (h.getD []).length) rows with
          | .error b => .error b
          | .ok (rows, c) => match substRow? W c opts (n - (h.getD []).length - rows.flatten.length) f with
            | .error b => .error b
            | .ok (f, c) => match organize a h rows f with
              | .error b => .error b
              | .ok t => .ok (.table a t.1 t.2.1 t.2.2, c)
  | .continuation o e => match substOne W c opts e with
    | .error b => .error b
    | .ok (e, c) => .ok (.continuation o e, c)
  | .labeled n a term es =>
    -- lines 216-234
    match substAttrs W c opts a with
    | .error b => .error b
    | .ok a => match subsFor .other a with
      | .error b => .error b
      | .ok subs => match substSlice W c subs (opts ++ [.entry .normalGroup]) term with
        | .error b => .error b
        | .ok (term, cs) => match substAll W { c with counters := cs } (opts ++ [.entry .normalGroup]) es with
          | .error b => .error b
          | .ok (es, c) => .ok (.labeled n a term es, c)
  | .block k a es =>
    -- lines 216-249
    match substAttrs W c opts a with
    | .error b => .error b
    | .ok a => match subsFor (blockOf k) a with
      | .error b => .error b
      | .ok subs =>
        if k.compound then
          match substAll W c (opts ++ [.entry .normalGroup]) es with
          | .error b => .error b
          | .ok (es, c) => .ok (.block k a es, c)
        else substVerbatim W c opts k a subs es
  | .paragraph a es => substParagraph W c opts a es
  | .group n a es =>
    -- lines 216-229, 261-262
    match substAttrs W c opts a with
    | .error b => .error b
    | .ok a => match subsFor .other a with
      | .error b => .error b
      | .ok _ => match substAll W c (opts ++ [.entry .normalGroup]) es with
        | .error b => .error b
        | .ok (es, c) => .ok (.group n a es, c)
  | .cell f es =>
    -- the same; cells have no attributes (types.go:4144-4146)
    match substAll W c (opts ++ [.entry .normalGroup]) es with
    | .error b => .error b
    | .ok (es, c) => .ok (.cell f es, c)
  | .located n a l => substLocated W c opts n a l
  | e => .ok (e, c)
/-- Lines 50-57 `applySubstitutionsOnElements`. -/
def substAll (W : World) (c : Ctx) (opts : List Opt) : List Any → Except Bad (List Any × Ctx)
  | [] => .ok ([], c)
  | e :: es => match substOne W c opts e with
    | .error b => .error b
    | .ok (e, c) => match substAll W c opts es with
      | .error b => .error b
      | .ok (es, c) => .ok (e :: es, c)
/-- Lines 159-169 for a cell of the header, which is only substituted if it holds just a paragraph; 172 and 183 for the others. -/
def substCell (W : World) (c : Ctx) (opts : List Opt) (head : Bool) : Any → Except Bad (Any × Ctx)
  | .cell f es =>
    if head then
      match es with
      | [.paragraph a ps] => match substParagraph W c opts a ps with
        | .error b => .error b
        | .ok (p, c) => .ok (.cell f [p], c)
      | es => .ok (.cell f es, c)
    else match substAll W c (opts ++ [.entry .normalGroup]) es with
      | .error b => .error b
      | .ok (es, c) => .ok (.cell f es, c)
  | e => .ok (e, c)
/-- Lines 159-185: the cells of a row, the first `n` of which belong to the header. -/
def substRow (W : World) (c : Ctx) (opts : List Opt) (n : Nat) : List Any → Except Bad (List Any × Ctx)
  | [] => .ok ([], c)
  | e :: es => match substCell W c opts (decide (0 < n)) e with
    | .error b => .error b
    | .ok (e, c) => match substRow W c opts (n - 1) es with
      | .error b => .error b
      | .ok (es, c) => .ok (e :: es, c)
/-- Lines 158 and 180: a row that may be absent. -/
def substRow? (W : World) (c : Ctx) (opts : List Opt) (n : Nat) : Option (List Any) → Except Bad (Option (List Any) × Ctx)
  | none => .ok (none, c)
  | some r => match substRow W c opts n r with
    | .error b => .error b
    | .ok (r, c) => .ok (some r, c)
/-- Lines 170-176: the rows. -/
def substRows (W : World) (c : Ctx) (opts : List Opt) (n : Nat) : List (List Any) → Except Bad (List (List Any) × Ctx)
  | [] => .ok ([], c)
  | r :: rs => match substRow W c opts n r with
    | .error b => .error b
    | .ok (r, c) => match substRows W c opts (n - r.length) rs with
      | .error b => .error b
      | .ok (rs, c) => .ok (r :: rs, c)
end

/-- A `DocumentFragment` (types.go:63-67): its elements, or an error. -/
inductive Fragment where
  | elements (es : List Any)
  | error

/-- Lines 37-48 `applySubstitutionsOnFragment`; after an error, the changes to the context remain, which C11 is about: here the
stage stops. -/
def substFragment (W : World) (c : Ctx) : Fragment → Except Bad (Fragment × Ctx)
  | .error => .ok (.error, c)
  | .elements es => match substAll W c [] es with
    | .error b => .error b
    | .ok (es, c) => .ok (.elements es, c)

end Verif.Walk
