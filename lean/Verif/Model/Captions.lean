import Verif.Model.Ids
/-!
Model of the captions of images, tables and examples: pkg/renderer/sgml/context.go, image.go, table.go and
delimited_block_example.go, in the traversal of pkg/renderer/sgml/elements.go.
-/
namespace Verif.Captions

/-- The captioned kinds, each with its counter in context.go:54-73. -/
inductive Kind where
  | image | table | example
deriving DecidableEq, Repr

/-- context.go:54, 61, 68: the names of the counters. -/
def Kind.counter : Kind → String
  | .image => "imageCounter"
  | .table => "tableCounter"
  | .example => "exampleBlockCounter"

/-- attributes.go:147-152: the attributes holding the captions. -/
def Kind.captionAttr : Kind → String
  | .image => "figure-caption"
  | .table => "table-caption"
  | .example => "example-caption"

/-- image.go:37, table.go:56, delimited_block_example.go:32: the text replaced by the number. -/
def Kind.placeholder : Kind → Text
  | .image => "{counter:figure-number}".toList
  | .table => "{counter:table-number}".toList
  | .example => "{counter:example-number}".toList

/-- What is rendered, as far as captions depend on it: declarations, resets and front matter change the attributes while rendering
(elements.go:104-113); `title` is the rendered title of a block (empty if none), `caption` its `caption` attribute if it is a string.
`box` is any other element with the elements rendered inside of it, in order (sections, lists, other blocks, preamble). -/
inductive Block where
  | decl (name : String) (value : Val)
  | reset (name : String)
  | front (attrs : AMap Val)
  | image (title : Text) (caption : Option Text)
  | table (hasTitle : Bool) (title : Text) (caption : Option Text) (header footer body : List Block)
  | example (title : Text) (caption : Option Text) (kids : List Block)
  | box (kids : List Block)

/-- context.go:10-19: the part of the rendering context used here. -/
structure RCtx where
  attrs : AMap Val
  counters : AMap Nat

/-- What the template of a block receives: its caption, its number (0: none) and its title. -/
structure Capt where
  kind : Kind
  caption : Text
  number : Nat
  title : Text
deriving DecidableEq, Repr

/-- Go `strings.Contains(t, sub)`. -/
def containsText (sub : Text) : Text → Bool
  | [] => sub.isEmpty
  | c :: t => sub.isPrefixOf (c :: t) || containsText sub t

/-- attributes.go:498-504 `GetAsString`. -/
def getAsString (attrs : AMap Val) (k : String) : Option Text :=
  match attrs.get k with
  | some (.str s) => some s
  | _ => none

/-- context.go:76-83 `getAndIncrementCounter`. -/
def getAndIncrement (counters : AMap Nat) (name : String) : Nat × AMap Nat :=
  match counters.get name with
  | none => (1, counters.set name 1)
  | some n => (n + 1, counters.set name (n + 1))

/-- image.go:28-36, table.go:43-51, delimited_block_example.go:24-30: the caption before the number is filled in. -/
def captionTemplate (k : Kind) (own : Option Text) (attrs : AMap Val) : Text :=
  match own with
  | some c => c
  | none => match getAsString attrs k.captionAttr with
    | some c => if c = [] then c else c ++ " ".toList ++ k.placeholder ++ ". ".toList
    | none => []

/-- image.go:37-42, table.go:56-60, delimited_block_example.go:32-35: the caption and number of a block. -/
def caption (k : Kind) (own : Option Text) (ctx : RCtx) : RCtx × Text × Nat :=
  if containsText k.placeholder (captionTemplate k own ctx.attrs) then
    (⟨ctx.attrs, (getAndIncrement ctx.counters k.counter).2⟩,
      replaceAll k.placeholder (itoa (getAndIncrement ctx.counters k.counter).1) (captionTemplate k own ctx.attrs),
      (getAndIncrement ctx.counters k.counter).1)
  else (ctx, captionTemplate k own ctx.attrs, 0)

mutual
/-- elements.go:46-118 `renderElement`, image.go:15-76 `renderImageBlock`, table.go:15-117 `renderTable` (header, footer and body
are rendered in this order, lines 66-77), delimited_block_example.go:13-58 `renderExampleBlock` (the content first, lines 16-19). The
result is the list of what the templates of images, tables and examples receive, in the order of rendering. (All titles are rendered
to text, errors are not modelled.) -/
def render : Block → RCtx → RCtx × List Capt
  | .decl name v, ctx => (⟨ctx.attrs.set name v, ctx.counters⟩, [])
  | .reset name, ctx => (⟨ctx.attrs.del name, ctx.counters⟩, [])
  | .front attrs, ctx => (⟨ctx.attrs.setAll attrs, ctx.counters⟩, [])
  | .image title own, ctx =>
    if title = [] then (ctx, [⟨.image, [], 0, title⟩])
    else
      let r := caption .image own ctx
      (r.1, [⟨.image, r.2.1, r.2.2, title⟩])
  | .table hasTitle title own header footer body, ctx =>
    let r := if hasTitle then caption .table own ctx else (ctx, [], 0)
    let h := renderAll header r.1
    let f := renderAll footer h.1
    let b := renderAll body f.1
    (b.1, ⟨.table, r.2.1, r.2.2, title⟩ :: (h.2 ++ f.2 ++ b.2))
  | .example title own kids, ctx =>
    let k := renderAll kids ctx
    let r := caption .example own k.1
    (r.1, k.2 ++ [⟨.example, r.2.1, r.2.2, title⟩])
  | .box kids, ctx => renderAll kids ctx
/-- elements.go:11-22 `renderElements`. -/
def renderAll : List Block → RCtx → RCtx × List Capt
  | [], ctx => (ctx, [])
  | b :: bs, ctx =>
    let r := render b ctx
    let rs := renderAll bs r.1
    (rs.1, r.2 ++ rs.2)
end

/-- context.go:22-48 `newContext`: captions are set, whatever the configuration says (authors and revision, lines 37-46, do not
matter here). -/
def newContext (config : AMap Val) : RCtx :=
  ⟨(((config.set "figure-caption" (.str "Figure".toList)).set "example-caption" (.str "Example".toList)).set "table-caption"
    (.str "Table".toList)).set "version-label" (.str "version".toList), []⟩

/-- html5/image.go:8, html5/table.go:12, html5/delimited_block_example_tmpl.go:6: what is shown as the title of a block. -/
def Capt.text (s : Capt) : Text := if s.title = [] then [] else s.caption ++ s.title

end Verif.Captions
