import Verif.Model.AttrRefs

/-!
The configuration (`pkg/configuration/configuration.go`), what a conversion does to it
(`libasciidoc.go`, `pkg/renderer/sgml/context.go`, `sgml.go`, `elements.go`), and the command line tool
(`cmd/libasciidoc/root_cmd.go`).

`config.Attributes` is a Go map, that is a reference: two configurations, and the caller, can hold the
same map.  The heap gives the content of each map; a nil map is no reference.
-/
namespace Verif
namespace Config

/-- The maps, by their reference. -/
abbrev Heap := Nat → AMap Val

/-- Changing the content of one map. -/
def upd (h : Heap) (r : Nat) (m : AMap Val) : Heap := fun i => if i = r then m else h i

/-- configuration.go:34-42 `Configuration` (times and macro templates are numbers). -/
structure Cfg where
  filename : Text
  attrs : Option Nat
  lastUpdated : Nat
  wrap : Bool
  css : List Text
  backend : Text
  macros : AMap Nat

/-- A write to a nil map. -/
inductive Panic where
  | nilMap
deriving DecidableEq, Repr

/-- configuration.go:49 `Setting`: one constructor for each `With…` function (lines 52-125). -/
inductive Setting where
  | figureCaption (caption : Text)
  | lastUpdated (t : Nat)
  | attributes (r : Option Nat)
  | attr (k : String) (v : Val)
  | headerFooter (b : Bool)
  | css (hrefs : List Text)
  | backEnd (b : Text)
  | filename (f : Text)
  | macroTemplate (name : String) (t : Nat)

/-- The Go value `true`. -/
def vTrue : Val := .other 1

/-- The backends of the `switch` statements (configuration.go:98, 105). -/
def htmlFamily : List Text := ["html".toList, "html5".toList, "xhtml".toList, "xhtml5".toList]

/-- `config.Attributes[k] = v`: panics on a nil map. -/
def assign (h : Heap) (r : Option Nat) (k : String) (v : Val) : Except Panic Heap :=
  match r with
  | none => .error .nilMap
  | some i => .ok (upd h i (AMap.set (h i) k v))

/-- `config.Attributes.Set(k, v)` with the result ignored, for keys other than roles and options
(attributes.go:387-395): on a nil map, the map made by `Set` is lost. -/
def softSet (h : Heap) (r : Option Nat) (k : String) (v : Val) : Heap :=
  match r with
  | none => h
  | some i => upd h i (AMap.set (h i) k v)

/-- `config.Attributes.Unset(k)` (attributes.go:442-444): deleting from a nil map does nothing. -/
def unset (h : Heap) (r : Option Nat) (k : String) : Heap :=
  match r with
  | none => h
  | some i => upd h i (AMap.del (h i) k)

/-- configuration.go:97-102 and 104-109: the `basebackend-html` attribute. -/
def baseBackend (h : Heap) (r : Option Nat) (b : Text) : Heap :=
  if b ∈ htmlFamily then softSet h r "basebackend-html" vTrue else unset h r "basebackend-html"

/-- configuration.go:94-111 `WithBackEnd`. -/
def setBackEnd (h : Heap) (r : Option Nat) (b : Text) : Heap :=
  baseBackend (baseBackend (softSet h r "backend" (.str b)) r b) r b

/-- configuration.go:52-125: applying one setting. -/
def apply (st : Heap × Cfg) : Setting → Except Panic (Heap × Cfg)
  | .figureCaption c => match assign st.1 st.2.attrs "figure-caption" (.str c) with
    | .ok h => .ok (h, st.2)
    | .error e => .error e
  | .lastUpdated t => .ok (st.1, { st.2 with lastUpdated := t })
  | .attributes r => .ok (st.1, { st.2 with attrs := r })
  | .attr k v => match assign st.1 st.2.attrs k v with
    | .ok h => .ok (h, st.2)
    | .error e => .error e
  | .headerFooter b => .ok (st.1, { st.2 with wrap := b })
  | .css l => .ok (st.1, { st.2 with css := l })
  | .backEnd b => .ok (setBackEnd st.1 st.2.attrs b, { st.2 with backend := b })
  | .filename f => .ok (st.1, { st.2 with filename := f })
  | .macroTemplate n t => .ok (st.1, { st.2 with macros := AMap.set st.2.macros n t })

/-- configuration.go:24-26: applying the settings in order. -/
def applyAll (st : Heap × Cfg) : List Setting → Except Panic (Heap × Cfg)
  | [] => .ok st
  | s :: l => match apply st s with
    | .ok st' => applyAll st' l
    | .error e => .error e

/-- configuration.go:13-19: the configuration before any setting; `fresh` is the reference of its new
map. -/
def initial (h : Heap) (fresh : Nat) : Heap × Cfg :=
  (upd h fresh [("basebackend-html", vTrue)], ⟨[], some fresh, 0, false, [], "html5".toList, []⟩)

/-- configuration.go:12-31 `NewConfiguration`. -/
def newConfiguration (h : Heap) (fresh : Nat) (l : List Setting) : Except Panic (Heap × Cfg) :=
  applyAll (initial h fresh) (.backEnd "html5".toList :: l)

/-- The two renderers. -/
inductive Renderer where
  | html5 | xhtml5
deriving DecidableEq, Repr

/-- renderer.go:13-22 `Render`: the renderer of a backend, none if it is not supported. -/
def rendererFor (b : Text) : Option Renderer :=
  if b = "html".toList ∨ b = "html5".toList then some .html5
  else if b = "xhtml".toList ∨ b = "xhtml5".toList then some .xhtml5
  else none

/-! ### Conversions -/

/-- A document element after parsing, as far as attributes are concerned. -/
inductive RElem where
  | declare (name : String) (v : Val)
  | reset (name : String)
  | content (es : List AttrRefs.REl)

/-- document_processing_apply_substitutions.go:58-124: the element after substitution: a declaration
holds its value after substitution. -/
def parsedElem (code : List Merge.MEl → Nat) (render : Nat → Option Text)
    (reparse : Option (List AttrRefs.REl → List AttrRefs.REl)) (st : AttrRefs.SState) : AttrRefs.DEl → RElem
  | .declare name ps => .declare name (AttrRefs.valOf code (AttrRefs.slicedValue render st.attrs.get ps))
  | .reset name => .reset name
  | .content es => .content (AttrRefs.substEl code render reparse st (.content es)).2

/-- document_processing_apply_substitutions.go:49-56 over a document without sections. -/
def parseDoc (code : List Merge.MEl → Nat) (render : Nat → Option Text)
    (reparse : Option (List AttrRefs.REl → List AttrRefs.REl)) (st : AttrRefs.SState) : List AttrRefs.DEl → List RElem
  | [] => []
  | e :: es => parsedElem code render reparse st e ::
      parseDoc code render reparse (AttrRefs.substEl code render reparse st e).1 es

/-- context.go:33-36: the attributes every conversion sets. -/
def builtins : List (String × Val) :=
  [("figure-caption", .str "Figure".toList), ("example-caption", .str "Example".toList),
    ("table-caption", .str "Table".toList), ("version-label", .str "version".toList)]

/-- elements.go:106-111: rendering one element, as far as attributes are concerned. -/
def renderWrite (m : AMap Val) : RElem → AMap Val
  | .declare name v => AMap.set m name v
  | .reset name => AMap.del m name
  | .content _ => m

/-- sgml.go:62-73: the declarations at the beginning of the document. -/
def leadingWrites (m : AMap Val) : List RElem → AMap Val
  | [] => m
  | .declare name v :: t => leadingWrites (AMap.set m name v) t
  | .reset name :: t => leadingWrites (AMap.del m name) t
  | .content _ :: _ => m

/-- The content of `config.Attributes` after rendering: context.go:22-36 (`attributes: config.Attributes`
is the same map), sgml.go:62-73, elements.go:106-111. Not modelled: a document header (its declarations
are written the same way, sgml.go:51-61) and the author and revision (context.go:38-45). -/
def renderAttrs (m : AMap Val) (doc : List RElem) : AMap Val :=
  doc.foldl renderWrite (leadingWrites (AMap.setAll m builtins) doc)

/-- The content shown: that of the elements that have one (elements.go:107-111: declarations show
nothing). -/
def shown : List RElem → List (List AttrRefs.REl)
  | [] => []
  | .content es :: t => es :: shown t
  | .declare _ _ :: t => shown t
  | .reset _ :: t => shown t

/-- libasciidoc.go:50-98 `Convert` for a valid article: parse with the attributes of the configuration
(context.go:37), render. The first write of the renderer panics on a nil map (context.go:33). -/
def convert (code : List Merge.MEl → Nat) (render : Nat → Option Text)
    (reparse : Option (List AttrRefs.REl → List AttrRefs.REl)) (h : Heap) (c : Cfg) (doc : List AttrRefs.DEl) :
    Except Panic (Heap × List (List AttrRefs.REl)) :=
  match c.attrs with
  | none => .error .nilMap
  | some r =>
    let parsed := parseDoc code render reparse ⟨CtxAttrs.new (h r), []⟩ doc
    .ok (upd h r (renderAttrs (h r) parsed), shown parsed)

/-- root_cmd.go:58-72: the files given on the command line, converted one after the other, each with a
new configuration holding the same map of attributes `attrs`; `fresh` gives the references of the maps
made by `NewConfiguration`. -/
def cli (code : List Merge.MEl → Nat) (render : Nat → Option Text)
    (reparse : Option (List AttrRefs.REl → List AttrRefs.REl)) (attrs : Nat) (css : List Text) (backend : Text)
    (noHeaderFooter : Bool) : Heap → Nat → List (Text × List AttrRefs.DEl) →
    Except Panic (List (List (List AttrRefs.REl)))
  | _, _, [] => .ok []
  | h, fresh, (file, doc) :: files =>
    match newConfiguration h fresh [.filename file, .attributes (some attrs), .css css, .backEnd backend,
        .headerFooter (!noHeaderFooter)] with
    | .error e => .error e
    | .ok (h1, c) =>
      match convert code render reparse h1 c doc with
      | .error e => .error e
      | .ok (h2, out) =>
        match cli code render reparse attrs css backend noHeaderFooter h2 (fresh + 1) files with
        | .error e => .error e
        | .ok outs => .ok (out :: outs)

/-- `strings.Split(attr, "=")`. -/
def splitEq : Text → List Text
  | [] => [[]]
  | c :: t => if c = '=' then [] :: splitEq t else
    match splitEq t with
    | [] => [[c]]
    | l :: ls => (c :: l) :: ls

/-- root_cmd.go:125-131: one `-a` option. -/
def parseAttribute (m : AMap Val) (a : Text) : AMap Val :=
  match splitEq a with
  | k :: v :: _ => AMap.set m (String.ofList k) (.str v)
  | k :: [] => AMap.set m (String.ofList k) (.str [])
  | [] => m

/-- root_cmd.go:122-133 `parseAttributes`. -/
def parseAttributes (l : List Text) : AMap Val := l.foldl parseAttribute []

end Config
end Verif
