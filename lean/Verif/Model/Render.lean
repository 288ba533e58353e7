import Verif.Model.Elements
import Verif.Model.Templates
/-!
The renderer: pkg/renderer/sgml/*.go, function by function.

The context which the Go code mutates is the state of the monad `M`; an error stops the rendering, and so does a panic.  The
recursion of `renderElement` (through elements, attributes and cross references) is not structural in the Go code: a cross
reference is rendered by rendering the title of its target.  Here the depth is bounded by a number, and running out of it is an
error of its own (`Err.fuel`); the theorems hold for every bound.

Functions of the standard library and of other packages whose results matter only by some of their properties are parameters:
`Lib`.
-/
namespace Verif.Rend
open Verif.Tmpl (Tm Templates)

inductive Err where
  /-- the depth is exhausted -/
  | fuel
  /-- the Go function returns an error -/
  | fail
  /-- the Go function panics -/
  | panic
deriving DecidableEq, Repr

/-- What the renderer uses from elsewhere. -/
structure Lib where
  /-- the templates -/
  tmpl : Templates
  /-- `strings.ToLower` -/
  lower : Text → Text
  /-- `fmt.Sprintf("%v", …)` of a value that is neither nil nor a string -/
  sprint : AV → Text
  /-- `fmt.Sprintf("%v", …)` of an element -/
  sprintEl : El → Text
  /-- `url.Parse`, then `IsAbs`; `none` is an error -/
  urlAbs : Text → Option Bool
  /-- image.go:138-147: the base name, without extension, of the path of an URL, with separators replaced; `none` is an error -/
  altOf : Text → Option Text
  /-- `path.Join` -/
  join : Text → Text → Text
  /-- `strconv.Atoi`, without its error -/
  atoi : Text → Int
  /-- types.go:4016-4048: the widths of columns, given whether the table has the option `autowidth` -/
  widths : Bool → List Col → List Text
  /-- delimited_block_source.go:89-131: the highlighting of a line, given the attributes of the document, those of the block and the
  number of the line -/
  highlight : Attrs → Attrs → Nat → Text → Option Text
  /-- user_macro.go:11, 23: the macros of the configuration -/
  userMacro : String → Option (Bool → Text → Attrs → Text → Option Text)
  /-- image.go:123-131: the content of a file, as a data URI -/
  dataUri : Text → Text

/-- context.go:10-19 `context`, and the prefixes that `SetPathPrefix` (types.go:3549-3567) has added to locations. -/
structure Ctx where
  attrs : Attrs
  within : Bool
  withinList : Nat
  counters : AMap Nat
  refs : List (Text × AV)
  hasHeader : Bool
  numbers : List (Text × Text)
  prefixes : List (Nat × Text)

/-- A computation that may change the context and may fail. -/
abbrev M (α : Type) := Ctx → Except Err (α × Ctx)

namespace M
def pure {α} (a : α) : M α := fun c => .ok (a, c)
def bind {α β} (m : M α) (f : α → M β) : M β := fun c =>
  match m c with
  | .ok (a, c') => f a c'
  | .error e => .error e
def get : M Ctx := fun c => .ok (c, c)
def modify (f : Ctx → Ctx) : M Unit := fun c => .ok ((), f c)
def error {α} (e : Err) : M α := fun _ => .error e
def lift {α} (x : Except Err α) : M α := fun c =>
  match x with
  | .ok a => .ok (a, c)
  | .error e => .error e
end M

instance : Monad M where
  pure := M.pure
  bind := M.bind

open M (get modify error)

section
variable (L : Lib)

/-- sgml_renderer.go:244-254 `execute`. -/
def exec (tm : Templates → Tm) (env : Tmpl.Env) : M Text :=
  match (tm L.tmpl).render L.lower env with
  | some t => pure t
  | none => error .fail

/-- The attributes of the document. -/
def docAttrs : M Attrs := do return (← get).attrs

/-- Runs with `withinDelimitedBlock` set, and resets it (delimited_block_fenced.go:11-15 and alike). -/
def inBlock (m : M Text) : M Text := do
  let c ← get
  modify fun x => { x with within := true }
  let t ← m
  modify fun x => { x with within := c.within }
  return t

/-! ### Plain text -/

/-- symbol.go:9-25 `symbols`. -/
def symbols : List (Text × Text) :=
  [("(C)".toList, "&#169;".toList), ("(R)".toList, "&#174;".toList), ("(TM)".toList, "&#8482;".toList),
   ("...".toList, "&#8230;&#8203;".toList), ("'".toList, "&#8217;".toList), ("'`".toList, "&#8216;".toList),
   ("`'".toList, "&#8217;".toList), ("\"`".toList, "&#8220;".toList), ("`\"".toList, "&#8221;".toList),
   ("->".toList, "&#8594;".toList), ("<-".toList, "&#8592;".toList), ("=>".toList, "&#8658;".toList),
   ("<=".toList, "&#8656;".toList), ("--".toList, "&#8212;&#8203;".toList), (" -- ".toList, "&#8201;&#8212;&#8201;".toList)]

/-- sgml.go:142-172 `predefinedAttributes`. -/
def predefinedAttributes : AMap Text :=
  [("sp", " ".toList), ("blank", []), ("empty", []), ("nbsp", "&#160;".toList), ("zwsp", "&#8203;".toList),
   ("wj", "&#8288;".toList), ("apos", "&#39;".toList), ("quot", "&#34;".toList), ("lsquo", "&#8216;".toList),
   ("rsquo", "&#8217;".toList), ("ldquo", "&#8220;".toList), ("rdquo", "&#8221;".toList), ("deg", "&#176;".toList),
   ("plus", "&#43;".toList), ("brvbar", "&#166;".toList), ("vbar", "|".toList), ("amp", "&".toList), ("lt", "<".toList),
   ("gt", ">".toList), ("startsb", "[".toList), ("endsb", "]".toList), ("caret", "^".toList), ("asterisk", "*".toList),
   ("tilde", "~".toList), ("backslash", "\\".toList), ("backtick", "`".toList), ("two-colons", "::".toList),
   ("two-semicolons", ";".toList), ("cpp", "C++".toList)]

/-- types_utils.go:146-165 `stringify`, of an element. -/
def stringifyEl : El → Text
  | .str t => t
  | .special n => n
  | e => L.sprintEl e

/-- types_utils.go:146-165 `stringify`. -/
def stringify : AV → Text
  | .str t => t
  | .els l => l.flatMap (stringifyEl L)
  | v => L.sprint v

/-- types.go:3595-3604 `Location.ToString`, given the prefix added to the path; empty for a nil location. -/
def locString (pre : Text) : Loc → Text
  | .loc _ scheme path => scheme ++ pre ++ stringify L path

/-- types.go:3608-3618 `Location.ToDisplayString`. -/
def locDisplay (pre : Text) : Loc → Text
  | .loc _ scheme path => (if scheme = "mailto:".toList then [] else scheme) ++ pre ++ stringify L path

/-- The prefix added to a location. -/
def prefixOf (c : Ctx) (l : Loc) : Text := (c.prefixes.lookup l.id).getD []

def El.isStr : El → Bool
  | .str _ => true
  | _ => false

/-- render_plain_text.go:84-107 `renderInlineElements`. -/
def plainInline (pl : El → Except Err Text) : List El → Except Err Text
  | [] => .ok []
  | e :: l => do
    let t ← pl e
    let t := if l.isEmpty && e.isStr then trimRight (· == ' ') t else t
    let u ← plainInline pl l
    return t ++ u

/-- render_plain_text.go:52-82 `render`, 109-137; `esc` is the field `escape`, which is nil in `RenderParagraphElements`.  The
location of a link is written without the prefix (only images have one). -/
def plain (esc : Option (Text → Text)) : Nat → El → Except Err Text
  | 0, _ => .error .fuel
  | n + 1, e =>
    match e with
    | .quoted _ _ els => plainInline (plain esc n) els
    | .icon _ attrs => .ok (getStrD L.sprint attrs "alt" [])
    | .inlineImage _ attrs => .ok (getStrD L.sprint attrs "alt" [])
    | .link loc attrs =>
      match AMap.get attrs "text" with
      | some (.els l) => plainInline (plain esc n) l
      | some (.str t) => .ok t
      | _ => .ok (match loc with | some l => locDisplay L [] l | none => [])
    | .blankLine => .ok "\n\n".toList
    | .special name =>
      match esc with
      | some f => .ok (f name)
      | none => .error .panic
    | .symbol name => .ok ((symbols.lookup name).getD name)
    | .str t => .ok t
    | .footnoteRef id _ _ =>
      if id = -1 then .error .fail
      else .ok ("<sup class=\"footnote\">[".toList ++ (toString id).toList ++ "]</sup>".toList)
    | .passthrough _ els => plainInline (plain esc n) els
    | _ => .error .fail

/-- render_plain_text.go:32-46 `RenderParagraphElements`: the loop. -/
def plainAll (pl : El → Except Err Text) : List El → Except Err Text
  | [] => .ok []
  | e :: l => do
    let t ← pl e
    let u ← plainAll pl l
    return t ++ u

end

/-! ### Elements

`re` renders an element, `pl true` renders one as plain text, `pl false` without a function to escape. -/

section
variable (L : Lib) (re : El → M Text) (pl : Bool → El → Except Err Text)

/-- elements.go:11-22 `renderElements`. -/
def renderAll : List El → M Text
  | [] => pure []
  | e :: l => do
    let t ← re e
    let u ← renderAll l
    return t ++ u

/-- elements.go:26-43 `renderListElements`: `withinList` is incremented for the first element. -/
def renderListElements : List El → M Text
  | [] => pure []
  | e :: l => do
    modify fun c => { c with withinList := c.withinList + 1 }
    let t ← re e
    modify fun c => { c with withinList := c.withinList - 1 }
    let u ← renderAll re l
    return t ++ u

/-- inline_elements.go:9-35 `renderInlineElements`. -/
def renderInline : List El → M Text
  | [] => pure []
  | e :: l => do
    let t ← re e
    let t := if l.isEmpty && e.isStr then trimRight (· == ' ') t else t
    let u ← renderInline l
    return t ++ u

/-- element_id.go:9-14 `renderElementID`. -/
def elementID (attrs : Attrs) : Text :=
  match attrs.get "id" with
  | some (.str t) => htmlEscape t
  | _ => []

/-- element_style.go:9-14 `renderElementStyle`. -/
def elementStyle (attrs : Attrs) : Text :=
  match attrs.get "style" with
  | some (.str t) => htmlEscape t
  | _ => []

/-- element_role.go:47-66 `renderElementRole`. -/
def elementRole : AV → M Text
  | .str t => pure t
  | .els l => renderAll re l
  | _ => error .fail

/-- element_role.go:13-21: the loop. -/
def rolesAll : List AV → M (List Text)
  | [] => pure []
  | v :: l => do
    let t ← elementRole re v
    let u ← rolesAll l
    return t :: u

/-- element_role.go:12-21, 37-44: the roles. -/
def rolesOf (attrs : Attrs) : M (List Text) :=
  match attrs.get "roles" with
  | some (.roles l) => rolesAll re l
  | _ => pure []

/-- element_role.go:10-23 `renderElementRoles`. -/
def elementRoles (attrs : Attrs) : M Text := do
  return joinWith " ".toList (← rolesOf re attrs)

/-- element_role.go:26-45 `renderImageRoles`. -/
def imageRoles (attrs : Attrs) : M Text := do
  let r ← rolesOf re attrs
  return joinWith " ".toList ((getStr attrs "float").toList ++ ((getStr attrs "align").map ("text-".toList ++ ·)).toList ++ r)

/-- paragraph.go:133-147 `renderElementTitle`. -/
def elementTitle (attrs : Attrs) : M Text :=
  match attrs.get "title" with
  | none => pure []
  | some (.str t) => pure t
  | some (.els l) => renderAll re l
  | some _ => error .fail

/-- string.go:12-21 `renderStringElement`; context.go:50-52 `UseUnicode`. -/
def renderStr (t : Text) : M Text := do
  return Escape.renderString (getBoolD (← docAttrs) "unicode" true) t

/-- special_character.go:9-20. -/
def renderSpecial (name : Text) : M Text :=
  if name = "&".toList then pure "&amp;".toList
  else if name = "<".toList then pure "&lt;".toList
  else if name = ">".toList then pure "&gt;".toList
  else error .fail

/-- symbol.go:27-35. -/
def renderSymbol (name : Text) : M Text :=
  match symbols.lookup name with
  | some t => pure t
  | none => error .fail

/-- predefined_attribute.go:7-9, sgml.go:174-177. -/
def renderPredefined (name : String) : M Text := pure ((predefinedAttributes.get name).getD [])

/-- quoted_text.go:13-64 `renderQuotedText`. -/
def renderQuoted (kind : QuotedKind) (attrs : Attrs) (els : List El) : M Text := do
  let content ← renderAll re els
  let roles ← elementRoles re attrs
  let env : Tmpl.Env := [("ID", .str (elementID attrs)), ("Roles", .str roles), ("Content", .str content)]
  match kind with
  | .bold => exec L (·.boldText) env
  | .italic => exec L (·.italicText) env
  | .marked => exec L (·.markedText) env
  | .monospace => exec L (·.monospaceText) env
  | .subscript => exec L (·.subscriptText) env
  | .superscript => exec L (·.superscriptText) env
  | .other => error .fail

/-- passthrough.go:37-57: the loop of `renderPassthroughContent`. -/
def passthroughAll : List El → M Text
  | [] => pure []
  | .str t :: l => do
    let u ← passthroughAll l
    return t ++ u
  | e :: l => do
    let t ← re e
    let u ← passthroughAll l
    return t ++ u

/-- passthrough.go:36-59 `renderPassthroughContent`. -/
def passthroughContent (els : List El) : M Text := do
  return trim (· == '\n') (← passthroughAll re els)

/-- passthrough.go:19-33 `renderInlinePassthrough`. -/
def renderPassthrough (singlePlus : Bool) (els : List El) : M Text := do
  let t ← passthroughContent re els
  return if singlePlus then htmlEscape t else t

/-- types.go:3595-3604: the location of a link, with its prefix. -/
def urlOf (c : Ctx) : Option Loc → Text
  | some l => locString L (prefixOf c l) l
  | none => []

/-- types.go:3608-3618: the location of a link, as it is displayed. -/
def displayOf (c : Ctx) : Option Loc → Text
  | some l => locDisplay L (prefixOf c l) l
  | none => []

/-- link.go:30-36: the class of a link without text. -/
def bareClass (loc : Option Loc) (roles : Text) : Text :=
  let cls := match loc with
    | some l => if l.scheme = "mailto:".toList then [] else "bare".toList
    | none => []
  if roles.isEmpty then cls else cls ++ " ".toList ++ roles

/-- link.go:16-37: the text and the class of a link. -/
def linkText (loc : Option Loc) (attrs : Attrs) (display roles : Text) : M (Text × Text) :=
  match attrs.get "text" with
  | some (.str t) => pure (Escape.escapeString t, roles)
  | some (.els l) => do
    let t ← renderInline re l
    return (t, roles)
  | some _ => pure ([], roles)
  | none => pure (Escape.escapeString display, bareClass loc roles)

/-- link.go:10-56 `renderLink`. -/
def renderLink (loc : Option Loc) (attrs : Attrs) : M Text := do
  let c ← get
  let roles ← elementRoles re attrs
  let tc ← linkText re loc attrs (displayOf L c loc) roles
  let target := getStrD L.sprint attrs "window" []
  exec L (·.link) [("ID", .str (getStrD L.sprint attrs "id" [])), ("URL", .str (Escape.escapeString (urlOf L c loc))),
    ("Text", .str tc.1), ("Class", .str tc.2), ("Target", .str target),
    ("NoOpener", .flag (target == "_blank".toList || hasOption attrs "noopener"))]

/-- cross_reference.go:33-50: the title of the target, links being rendered as plain text. -/
def xrefLabel : List El → M Text
  | [] => pure []
  | .link loc attrs :: l => do
    let t ← M.lift (pl true (.link loc attrs))
    let u ← xrefLabel l
    return t ++ u
  | e :: l => do
    let t ← re e
    let u ← xrefLabel l
    return t ++ u

/-- cross_reference.go:24-53: the text of a cross reference without label. -/
def refLabel (xid : Text) : Option AV → M Text
  | some (.str t) => pure t
  | some (.els l) => xrefLabel re pl l
  | some _ => error .fail
  | none => pure ("[".toList ++ xid ++ "]".toList)

/-- cross_reference.go:14-62 `renderInternalCrossReference`. -/
def renderXref (id label : AV) : M Text :=
  match id with
  | .str xid => do
    let c ← get
    let text ← (match label with
      | .str t => pure t
      | _ => refLabel re pl xid (c.refs.lookup xid) : M Text)
    exec L (·.internalCrossReference) [("Href", .str xid), ("Label", .str text)]
  | _ => error .fail

/-- cross_reference.go:92-103 `getCrossReferenceLocation`, `defaultXrefLabel`: the page. -/
def extPage (display : Text) : Text := display.take (display.length - (fileExt display).length) ++ ".html".toList

/-- cross_reference.go:92-97 `getCrossReferenceLocation`. -/
def extHref (display : Text) : Text := if fileExt display = [] then "#".toList ++ display else extPage display

/-- cross_reference.go:66-77: the label. -/
def extLabel (attrs : Attrs) (display : Text) : M Text :=
  match attrs.get "xrefLabel" with
  | some (.str t) => pure t
  | some (.els l) => renderInline re l
  | _ => pure (if fileExt display = [] then "[".toList ++ display ++ "]".toList else extPage display)

/-- cross_reference.go:64-103 `renderExternalCrossReference`, `defaultXrefLabel`, `getCrossReferenceLocation`. -/
def renderExtXref (loc : Option Loc) (attrs : Attrs) : M Text := do
  let c ← get
  let label ← extLabel re attrs (displayOf L c loc)
  exec L (·.externalCrossReference) [("Href", .str (extHref (displayOf L c loc))), ("Label", .str label)]

/-- footnote_reference.go:10-57 `renderFootnoteReference`. -/
def renderFootnoteRef (id : Int) (ref : Text) (duplicate : Bool) : M Text :=
  if id ≠ -1 ∧ duplicate = false then exec L (·.footnote) [("ID", .num id), ("Ref", .str ref)]
  else if duplicate then exec L (·.footnoteRef) [("ID", .num id), ("Ref", .str ref)]
  else exec L (·.invalidFootnote) [("Ref", .str ref)]

/-- types.go:3549-3567 `Location.SetPathPrefix`. -/
def setPathPrefix (p : Text) (l : Loc) : M Unit :=
  if p = [] then pure () else do
    let c ← get
    if l.scheme = [] ∧ (locString L (prefixOf c l) l).head? ≠ some '/' ∧ L.urlAbs (locString L (prefixOf c l) l) = some false then
      modify fun c => { c with prefixes :=
        (l.id, (if p.getLast? = some '/' then p else p ++ "/".toList) ++ prefixOf c l) :: c.prefixes }
    else pure ()

/-- image.go:112-132 `getImageSrc`. -/
def imageSrc (l : Loc) : M Text := do
  let doc ← docAttrs
  setPathPrefix L ((getStr doc "imagesdir").getD []) l
  let c ← get
  let src := locString L (prefixOf c l) l
  return if has c.attrs "data-uri" then L.dataUri src else src

/-- image.go:134-148 `renderImageAlt`. -/
def imageAlt (attrs : Attrs) (src : Text) : M Text :=
  match getStr attrs "alt" with
  | some t => pure t
  | none => match L.altOf src with
    | some t => pure t
    | none => error .fail

/-- image.go:28-43, table.go:42-61, delimited_block_example.go:24-36: the caption, with the number of the block. -/
def captionText (k : Captions.Kind) (attrs doc : Attrs) : Text :=
  match getStr attrs "caption" with
  | some t => t
  | none => match getStr doc k.captionAttr with
    | some t => if t = [] then t else t ++ " ".toList ++ k.placeholder ++ ". ".toList
    | none => []

/-- image.go:34-43, table.go:53-61, delimited_block_example.go:31-36: the number of the block. -/
def caption (k : Captions.Kind) (attrs : Attrs) : M Text := do
  let c ← get
  let t := captionText k attrs c.attrs
  if Captions.containsText k.placeholder t then
    let r := Captions.getAndIncrement c.counters k.counter
    modify fun c => { c with counters := r.2 }
    return replaceAll k.placeholder (itoa r.1) t
  else return t

/-- image.go:27, table.go:42: a caption is only computed for a block with a title. -/
def optCaption (b : Bool) (k : Captions.Kind) (attrs : Attrs) : M Text := if b then caption k attrs else pure []

/-- image.go:16-76 `renderImageBlock`. -/
def renderImageBlock (l : Loc) (attrs : Attrs) : M Text := do
  let title ← elementTitle re attrs
  let cap ← optCaption (title ≠ []) .image attrs
  let roles ← imageRoles re attrs
  let src ← imageSrc L l
  let alt ← imageAlt L attrs src
  exec L (·.blockImage) [("ID", .str (elementID attrs)), ("Src", .str src), ("Title", .str title), ("Caption", .str cap),
    ("Roles", .str roles), ("Href", .str (getStrD L.sprint attrs "link" [])), ("Alt", .str alt),
    ("Width", .str (getStrD L.sprint attrs "width" [])), ("Height", .str (getStrD L.sprint attrs "height" []))]

/-- image.go:78-110 `renderInlineImage`. -/
def renderInlineImage (l : Loc) (attrs : Attrs) : M Text := do
  let roles ← imageRoles re attrs
  let src ← imageSrc L l
  let alt ← imageAlt L attrs src
  let title ← elementTitle re attrs
  exec L (·.inlineImage) [("Src", .str src), ("Title", .str title), ("Roles", .str roles),
    ("Href", .str (getStrD L.sprint attrs "link" [])), ("Alt", .str alt),
    ("Width", .str (getStrD L.sprint attrs "width" [])), ("Height", .str (getStrD L.sprint attrs "height" []))]

/-- icon.go:38-44 `defaultIconClasses`. -/
def defaultIconClasses : List (Text × Text) :=
  [("caution-caption".toList, "Caution".toList), ("important-caption".toList, "Important".toList),
   ("note-caption".toList, "Note".toList), ("tip-caption".toList, "Tip".toList), ("warning-caption".toList, "Warning".toList)]

/-- icon.go:119-127 `renderIconPath`. -/
def iconPath (doc : Attrs) (name : Text) : Text :=
  L.join (getStrD L.sprint doc "iconsdir" (L.join (getStrD L.sprint doc "imagesdir" "./images".toList) "icons".toList))
    (name ++ ".".toList ++ getStrD L.sprint doc "icontype" "png".toList)

/-- icon.go:46-117 `renderIcon`. -/
def renderIcon (cls : Text) (attrs : Attrs) (admonition : Bool) : M Text := do
  let doc ← docAttrs
  let icons := getStrD L.sprint doc "icons" "text".toList
  let key := cls ++ "-caption".toList
  let caption := getStrD L.sprint attrs "caption"
    (getStrD L.sprint doc (String.ofList key) ((defaultIconClasses.lookup key).getD []))
  let font : Bool := icons = "font".toList
  let alt := if admonition then (if font then [] else caption) else getStrD L.sprint attrs "alt" cls
  let title := if admonition then (if font then caption else []) else getStrD L.sprint attrs "title" []
  let env : Tmpl.Env := [("Class", .str cls), ("Alt", .str alt), ("Title", .str title),
    ("Width", .str (getStrD L.sprint attrs "width" [])), ("Height", .str (getStrD L.sprint attrs "height" [])),
    ("Size", .str (getStrD L.sprint attrs "size" [])), ("Rotate", .str (getStrD L.sprint attrs "rotate" [])),
    ("Flip", .str (getStrD L.sprint attrs "flip" [])), ("Link", .str (getStrD L.sprint attrs "link" [])),
    ("Window", .str (getStrD L.sprint attrs "window" [])), ("Src", .str (iconPath L doc cls)), ("Admonition", .flag admonition)]
  if icons = "font".toList then exec L (·.iconFont) env
  else if icons = "text".toList then exec L (·.iconText) env
  else if icons = "image".toList ∨ icons = [] then exec L (·.iconImage) env
  else error .fail

/-- icon.go:13-36 `renderInlineIcon`. -/
def renderInlineIcon (cls : Text) (attrs : Attrs) : M Text := do
  let icon ← renderIcon L cls attrs false
  exec L (·.inlineIcon) [("Class", .str cls), ("Icon", .str icon), ("ID", .str (elementID attrs)),
    ("Link", .str (getStrD L.sprint attrs "link" [])), ("Window", .str (getStrD L.sprint attrs "window" [])),
    ("Role", .str (getStrD L.sprint attrs "roles" []))]

/-- inline_button.go:10-20 `renderInlineButton`; a template writes a nil value as `<no value>`. -/
def renderButton (attrs : Attrs) : M Text :=
  exec L (·.inlineButton) [(".", .str (match attrs.get "label" with
    | some (.str t) => t
    | some .nil => "<no value>".toList
    | none => "<no value>".toList
    | some v => L.sprint v))]

/-- html5/inline_menu.go: what follows the first element of the path. -/
def menuTail : List Text → Text
  | [] => []
  | [t] => "&#160;<b class=\"caret\">&#8250;</b> <b class=\"menuitem\">".toList ++ t ++ "</b>".toList
  | t :: u :: l => "&#160;<b class=\"caret\">&#8250;</b> <b class=\"submenu\">".toList ++ t ++ "</b>".toList ++ menuTail (u :: l)

/-- inline_menu.go:7-13, with the template html5/inline_menu.go:5-21 (that of xhtml5 is the same): the end tag of the path is within
`with`, hence not written for an empty path. -/
def renderMenu : List Text → Text
  | [] => "<span class=\"menuseq\">".toList
  | [t] => "<b class=\"menuref\">".toList ++ t ++ "</b>".toList
  | t :: u :: l => "<span class=\"menuseq\"><b class=\"menu\">".toList ++ t ++ "</b>".toList ++ menuTail (u :: l) ++ "</span>".toList

/-- delimited_block_source.go:173-184 `renderCalloutRef`. -/
def renderCallout (ref : Int) : M Text := exec L (·.calloutRef) [("Ref", .num ref)]

/-! ### Paragraphs and blocks -/

/-- paragraph.go:117-131 `renderCheckStyle`. -/
def checkStyle : Option AV → Text
  | some (.check t) =>
    if t = "checked".toList then "&#10003; ".toList
    else if t = "checked-interactive".toList then "<input type=\"checkbox\" data-item-complete=\"1\" checked> ".toList
    else if t = "unchecked".toList then "&#10063; ".toList
    else if t = "unchecked-interactive".toList then "<input type=\"checkbox\" data-item-complete=\"0\"> ".toList
    else []
  | _ => []

/-- paragraph.go:149-174 `renderParagraphElements`. -/
def paragraphElements (attrs : Attrs) (els : List El) : M Text := do
  let doc ← docAttrs
  let hardbreaks := hasOption attrs "hardbreaks" || hasOption doc "hardbreaks"
  let t ← renderAll re els
  if hardbreaks then do
    let br ← exec L (·.lineBreak) []
    return replaceAll "\n".toList (br ++ "\n".toList) t
  else return t

/-- paragraph.go:41-68 `renderRegularParagraph`. -/
def regularParagraph (attrs : Attrs) (els : List El) : M Text := do
  let content ← paragraphElements L re attrs els
  let roles ← elementRoles re attrs
  let title ← elementTitle re attrs
  exec L (·.paragraph) [("ID", .str (elementID attrs)), ("Title", .str title), ("Roles", .str roles),
    ("Content", .str (trim (· == '\n') content))]

/-- paragraph.go:70-83 `renderManpageNameParagraph`. -/
def manpageNameParagraph (els : List El) : M Text := do
  let content ← renderAll re els
  exec L (·.manpageNameParagraph) [("Content", .str content)]

/-- paragraph.go:85-101 `renderEmbeddedParagraph`, always called with an empty class. -/
def embeddedParagraph (attrs : Attrs) (els : List El) : M Text := do
  let content ← renderAll re els
  exec L (·.embeddedParagraph) [("Class", .str []), ("CheckStyle", .str (checkStyle (attrs.get "checkstyle"))),
    ("Content", .str (trimSpaces content))]

/-- The data of most blocks. -/
def blockEnv (attrs : Attrs) (title roles content : Text) : Tmpl.Env :=
  [("ID", .str (elementID attrs)), ("Title", .str title), ("Roles", .str roles), ("Content", .str content)]

/-- attribution.go:11-22 `newAttribution`. -/
def attribution (attrs : Attrs) : Text × Text :=
  match getStr attrs "quoteAuthor" with
  | some a => (a, (getStr attrs "quoteTitle").getD [])
  | none => ((getStr attrs "quoteTitle").getD [], [])

/-- delimited_block_example.go:61-90 `renderExampleParagraph`. -/
def exampleParagraph (attrs : Attrs) (els : List El) : M Text := do
  let content ← renderAll re els
  let roles ← elementRoles re attrs
  let title ← elementTitle re attrs
  exec L (·.exampleBlock) (("Caption", .str []) :: blockEnv attrs title roles (content ++ "\n".toList))

/-- delimited_block_listing.go:46-72 `renderListingParagraph`. -/
def listingParagraph (attrs : Attrs) (els : List El) : M Text := do
  let content ← renderAll re els
  let roles ← elementRoles re attrs
  let title ← elementTitle re attrs
  exec L (·.listingBlock) (blockEnv attrs title roles content)

/-- types_utils.go:200-230 `SplitElementsPerLine`: the elements of each line; `line` holds those of the current one. -/
def splitPerLine (line : List El) : List El → List (List El)
  | [] => if line.isEmpty then [] else [line]
  | .str t :: l =>
    let parts := (splitNL t).map (fun s => if s.isEmpty then [] else [El.str s])
    match parts with
    | [] => splitPerLine line l
    | p :: ps => match ps.getLast? with
      | none => splitPerLine (line ++ p) l
      | some lastPart => (line ++ p) :: ps.dropLast ++ splitPerLine lastPart l
  | e :: l => splitPerLine (line ++ [e]) l

/-- delimited_block_source.go:149-171 `renderSourceLine`: the text and the callouts. -/
def sourceLine : List El → M (Text × List Int)
  | [] => pure ([], [])
  | .str t :: l => do
    let r ← sourceLine l
    return (t ++ r.1, r.2)
  | .special n :: l => do
    let r ← sourceLine l
    return (n ++ r.1, r.2)
  | .callout ref :: l => do
    let r ← sourceLine l
    return (r.1, ref :: r.2)
  | _ :: _ => error .fail

/-- delimited_block_source.go:133-139: the callouts of a line. -/
def calloutsAll : List Int → M Text
  | [] => pure []
  | r :: l => do
    let t ← renderCallout L r
    let u ← calloutsAll l
    return t ++ u

/-- A highlighted line, or an error. -/
def highlighted : Option Text → M Text
  | some h => pure h
  | none => error .fail

/-- delimited_block_source.go:112-144: the lines. -/
def sourceLines (attrs : Attrs) : Nat → List (List El) → M Text
  | _, [] => pure []
  | i, line :: ls => do
    let tc ← sourceLine line
    let doc ← docAttrs
    let h ← highlighted (L.highlight doc attrs i tc.1)
    let cs ← calloutsAll L tc.2
    let u ← sourceLines attrs (i + 1) ls
    return h ++ cs ++ (if ls.isEmpty then [] else "\n".toList) ++ u

/-- delimited_block_source.go:68-147 `renderSourceBlockElements`: the content, the highlighter and the language. -/
def sourceContent (attrs : Attrs) (els : List El) : M (Text × Text × Text) := do
  let doc ← docAttrs
  let highlighter := getStrD L.sprint doc "source-highlighter" []
  let language := getStrD L.sprint attrs "language" []
  let t ← inBlock (if language = [] ∨ (highlighter ≠ "chroma".toList ∧ highlighter ≠ "pygments".toList) then renderAll re els
    else sourceLines L attrs 0 (splitPerLine [] els))
  return (t, highlighter, language)

/-- delimited_block_source.go:27-35: the option `nowrap`. -/
def nowrapOf (attrs : Attrs) : Bool :=
  match attrs.get "options" with
  | some (.options l) => l.any (AV.isStr "nowrap".toList)
  | _ => false

/-- delimited_block_source.go:17-57 `renderSourceBlock`. -/
def sourceBlock (attrs : Attrs) (els : List El) : M Text := do
  let r ← sourceContent L re attrs els
  let roles ← elementRoles re attrs
  let title ← elementTitle re attrs
  exec L (·.sourceBlock) (("SyntaxHighlighter", .str r.2.1) :: ("Language", .str r.2.2) :: ("Nowrap", .flag (nowrapOf attrs)) ::
    blockEnv attrs title roles (trim (· == '\n') r.1))

/-- The data of quotes and verses. -/
def quoteEnv (attrs : Attrs) (title roles content : Text) : Tmpl.Env :=
  ("Attribution.First", .str (attribution attrs).1) :: ("Attribution.Second", .str (attribution attrs).2) ::
    blockEnv attrs title roles content

/-- delimited_block_verse.go:47-71 `renderVerseParagraph`. -/
def verseParagraph (attrs : Attrs) (els : List El) : M Text := do
  let content ← M.lift (plainAll (pl false) els)
  let title ← elementTitle re attrs
  exec L (·.verseParagraph) (quoteEnv attrs title [] content)

/-- delimited_block_quote.go:40-64 `renderQuoteParagraph`. -/
def quoteParagraph (attrs : Attrs) (els : List El) : M Text := do
  let content ← paragraphElements L re attrs els
  let title ← elementTitle re attrs
  exec L (·.quoteParagraph) (quoteEnv attrs title [] content)

/-- delimited_block_admonition.go:50-90 `renderAdmonitionParagraph`. -/
def admonitionParagraph (attrs : Attrs) (els : List El) : M Text :=
  match getStr attrs "style" with
  | none => error .fail
  | some kind => do
    let kind := L.lower kind
    let icon ← renderIcon L kind attrs true
    let content ← paragraphElements L re attrs els
    let roles ← elementRoles re attrs
    let title ← elementTitle re attrs
    exec L (·.admonitionParagraph) (("Kind", .str kind) :: ("Icon", .str icon) :: blockEnv attrs title roles content)

/-- delimited_block_example.go:92-123 `renderLiteralParagraph`. -/
def literalParagraph (attrs : Attrs) (els : List El) : M Text := do
  let content ← renderAll re els
  let content := if getStr attrs "style" = some "literal_paragraph".toList then adjustHeadingSpaces content else content
  let roles ← elementRoles re attrs
  let title ← elementTitle re attrs
  exec L (·.literalBlock) (blockEnv attrs title roles content)

/-- passthrough.go:11-17 `renderPassthroughParagraph`. -/
def passthroughParagraph (els : List El) : M Text := do
  return (← passthroughContent re els) ++ "\n".toList

/-- paragraph.go:11-39 `renderParagraph`. -/
def renderParagraph (attrs : Attrs) (els : List El) : M Text := do
  let c ← get
  if c.within = true ∨ c.withinList > 0 then embeddedParagraph L re attrs els
  else
    let style := getStr attrs "style"
    if style = some "example".toList then exampleParagraph L re attrs els
    else if style = some "listing".toList then listingParagraph L re attrs els
    else if style = some "source".toList then sourceBlock L re attrs els
    else if style = some "verse".toList then verseParagraph L re pl attrs els
    else if style = some "quote".toList then quoteParagraph L re attrs els
    else if style = some "pass".toList then passthroughParagraph re els
    else if style = some "manpage".toList then manpageNameParagraph L re els
    else if style = some "TIP".toList ∨ style = some "NOTE".toList ∨ style = some "IMPORTANT".toList ∨
        style = some "WARNING".toList ∨ style = some "CAUTION".toList then admonitionParagraph L re attrs els
    else if style = some "literal_paragraph".toList ∨ style = some "literal".toList then literalParagraph L re attrs els
    else regularParagraph L re attrs els

/-- delimited_block_admonition.go:11-48 `renderAdmonitionBlock`.  (`discardBlankLines`, delimited_block_discard_lines.go:7-37, looks
for values of type `types.BlankLine`: there are none, blank lines are pointers.) -/
def admonitionBlock (attrs : Attrs) (els : List El) : M Text := do
  let kind := L.lower ((getStr attrs "style").getD [])
  let icon ← renderIcon L (L.lower kind) attrs true
  let content ← renderAll re els
  let roles ← elementRoles re attrs
  let title ← elementTitle re attrs
  exec L (·.admonitionBlock) (("Kind", .str kind) :: ("Icon", .str icon) :: blockEnv attrs title roles content)

/-- delimited_block_example.go:13-59 `renderExampleBlock`. -/
def exampleBlock (attrs : Attrs) (els : List El) : M Text := do
  let content ← renderAll re els
  let roles ← elementRoles re attrs
  let cap ← caption .example attrs
  let title ← elementTitle re attrs
  exec L (·.exampleBlock) (("Caption", .str cap) :: blockEnv attrs title roles content)

/-- delimited_block_fenced.go:10-41 `renderFencedBlock`. -/
def fencedBlock (attrs : Attrs) (els : List El) : M Text :=
  inBlock do
    let content ← renderAll re els
    let roles ← elementRoles re attrs
    let title ← elementTitle re attrs
    exec L (·.fencedBlock) (blockEnv attrs title roles (trim (· == '\n') content))

/-- literal_blocks.go:11-39 `renderLiteralBlock`. -/
def literalBlock (attrs : Attrs) (els : List El) : M Text := do
  let content ← renderAll re els
  let roles ← elementRoles re attrs
  let title ← elementTitle re attrs
  exec L (·.literalBlock) (blockEnv attrs title roles (trim (· == '\n') content))

/-- delimited_block_listing.go:10-44 `renderListingBlock`. -/
def listingBlock (attrs : Attrs) (els : List El) : M Text :=
  if getStr attrs "style" = some "source".toList then sourceBlock L re attrs els
  else inBlock do
    let content ← renderAll re els
    let roles ← elementRoles re attrs
    let title ← elementTitle re attrs
    exec L (·.listingBlock) (blockEnv attrs title roles (trim (· == '\n') content))

/-- delimited_block_markdown_quote.go:10-39 `renderMarkdownQuoteBlock`. -/
def markdownQuoteBlock (attrs : Attrs) (els : List El) : M Text := do
  let content ← renderAll re els
  let roles ← elementRoles re attrs
  let title ← elementTitle re attrs
  exec L (·.markdownQuoteBlock) (quoteEnv attrs title roles (trim (· == '\n') content))

/-- delimited_block_passthrough.go:10-35 `renderPassthroughBlock`. -/
def passthroughBlock (attrs : Attrs) (els : List El) : M Text :=
  inBlock do
    let content ← renderAll re els
    let roles ← elementRoles re attrs
    exec L (·.passthroughBlock) [("ID", .str (elementID attrs)), ("Roles", .str roles), ("Content", .str (trim (· == '\n') content))]

/-- delimited_block_quote.go:9-38 `renderQuoteBlock`. -/
def quoteBlock (attrs : Attrs) (els : List El) : M Text := do
  let content ← renderAll re els
  let roles ← elementRoles re attrs
  let title ← elementTitle re attrs
  exec L (·.quoteBlock) (quoteEnv attrs title roles content)

/-- delimited_block_verse.go:11-45 `renderVerseBlock`. -/
def verseBlock (attrs : Attrs) (els : List El) : M Text := do
  let roles ← elementRoles re attrs
  inBlock do
    let content ← renderAll re els
    let title ← elementTitle re attrs
    exec L (·.verseBlock) (quoteEnv attrs title roles (trim (· == '\n') content))

/-- delimited_block_sidebar.go:8-35 `renderSidebarBlock`. -/
def sidebarBlock (attrs : Attrs) (els : List El) : M Text := do
  let content ← renderAll re els
  let roles ← elementRoles re attrs
  let title ← elementTitle re attrs
  exec L (·.sidebarBlock) (blockEnv attrs title roles content)

/-- delimited_block_open.go:8-35 `renderOpenBlock`. -/
def openBlock (attrs : Attrs) (els : List El) : M Text := do
  let content ← renderAll re els
  let roles ← elementRoles re attrs
  let title ← elementTitle re attrs
  exec L (·.openBlock) (blockEnv attrs title roles content)

/-- delimited_block.go:9-38 `renderDelimitedBlock`. -/
def renderBlock (kind : BlockKind) (attrs : Attrs) (els : List El) : M Text :=
  match kind with
  | .«example» => if has attrs "style" then admonitionBlock L re attrs els else exampleBlock L re attrs els
  | .fenced => fencedBlock L re attrs els
  | .literal => literalBlock L re attrs els
  | .listing => listingBlock L re attrs els
  | .markdownQuote => markdownQuoteBlock L re attrs els
  | .pass => passthroughBlock L re attrs els
  | .quote => quoteBlock L re attrs els
  | .verse => verseBlock L re attrs els
  | .sidebar => sidebarBlock L re attrs els
  | .«open» => openBlock L re attrs els
  | .other => error .fail

/-! ### Lists -/

/-- list.go:89-102 `numberingType`. -/
def numberingType (style : Text) : Text :=
  if style = "loweralpha".toList then "a".toList
  else if style = "upperalpha".toList then "A".toList
  else if style = "lowerroman".toList then "i".toList
  else if style = "upperroman".toList then "I".toList
  else []

/-- list.go:34-41, 104-123 `renderOrderedListElement`: the elements of an ordered list. -/
def orderedItems : List Item → M Text
  | [] => pure []
  | i :: l =>
    if i.kind = .ordered then do
      let content ← renderListElements re i.els
      let t ← exec L (·.orderedListElement) [("Content", .str content)]
      let u ← orderedItems l
      return t ++ u
    else error .fail

/-- list.go:77-86 `getNumberingStyle`. -/
def numberingStyle (attrs : Attrs) (items : List Item) : M Text :=
  match getStr attrs "style" with
  | some s => pure s
  | none => match items with
    | [] => error .panic
    | i :: _ => if i.kind = .ordered then pure i.style else error .fail

/-- list.go:31-75 `renderOrderedList`. -/
def orderedList (attrs : Attrs) (items : List Item) : M Text := do
  let content ← orderedItems L re items
  let roles ← elementRoles re attrs
  let style ← numberingStyle attrs items
  let title ← elementTitle re attrs
  exec L (·.orderedList) (("Style", .str style) :: ("ListStyle", .str (numberingType style)) ::
    ("Start", .str (getStrD L.sprint attrs "start" [])) :: ("Reversed", .flag (hasOption attrs "reversed")) ::
    blockEnv attrs title roles content)

/-- list.go:140-144, 175-194 `renderUnorderedListElement`: the elements of an unordered list. -/
def unorderedItems : List Item → M Text
  | [] => pure []
  | i :: l => do
    let content ← renderListElements re i.els
    let t ← exec L (·.unorderedListElement) [("Content", .str content)]
    let u ← unorderedItems l
    return t ++ u

/-- list.go:131-139: whether the first element has a check box. -/
def isCheckList : List Item → M Bool
  | [] => pure false
  | i :: _ => if i.kind = .unordered then pure (i.checkStyle ≠ "nocheck".toList : Bool) else error .fail

/-- list.go:128-174 `renderUnorderedList`. -/
def unorderedList (attrs : Attrs) (items : List Item) : M Text := do
  let checkList ← isCheckList items
  let content ← unorderedItems L re items
  let roles ← elementRoles re attrs
  let title ← elementTitle re attrs
  exec L (·.unorderedList) (("Checklist", .flag checkList) :: ("Style", .str (elementStyle attrs)) ::
    blockEnv attrs title roles content)

/-- list.go:207-215, 283-305 `renderLabeledListItem`: the elements of a labeled list. -/
def labeledItems (tm : Templates → Tm) : Bool → List Item → M Text
  | _, [] => pure []
  | cont, i :: l =>
    if i.kind = .labeled then do
      let term ← renderInline re i.term
      let content ← renderListElements re i.els
      let t ← exec L tm [("Term", .str term), ("Content", .str content), ("Continuation", .flag cont)]
      let u ← labeledItems tm content.isEmpty l
      return t ++ u
    else error .fail

/-- list.go:199-243 `renderLabeledList`, given the templates. -/
def labeledListWith (listTm itemTm : Templates → Tm) (attrs : Attrs) (items : List Item) : M Text := do
  let content ← labeledItems L re itemTm false items
  let roles ← elementRoles re attrs
  let title ← elementTitle re attrs
  exec L listTm (blockEnv attrs title roles content)

/-- list.go:199-243 `renderLabeledList`, 245-281 `getLabeledListTmpl`. -/
def labeledList (attrs : Attrs) (items : List Item) : M Text :=
  match attrs.get "style" with
  | some (.str t) =>
    if t = "qanda".toList then labeledListWith L re (·.qAndAList) (·.qAndAListElement) attrs items
    else if t = "horizontal".toList then labeledListWith L re (·.labeledListHorizontal) (·.labeledListHorizontalElement) attrs items
    else error .fail
  | some _ => error .fail
  | none => labeledListWith L re (·.labeledList) (·.labeledListElement) attrs items

/-- list.go:312-323, 348-362 `renderCalloutListElement`: the elements of a callout list. -/
def calloutItems : List Item → M Text
  | [] => pure []
  | i :: l =>
    if i.kind = .callout then do
      let content ← renderListElements re i.els
      let t ← exec L (·.calloutListElement) [("Ref", .num i.ref), ("Content", .str content)]
      let u ← calloutItems l
      return t ++ u
    else error .fail

/-- list.go:310-346 `renderCalloutList`. -/
def calloutList (attrs : Attrs) (items : List Item) : M Text := do
  let content ← calloutItems L re items
  let roles ← elementRoles re attrs
  let title ← elementTitle re attrs
  exec L (·.calloutList) (blockEnv attrs title roles content)

/-- list.go:13-26 `renderList`. -/
def renderList (kind : ListKind) (attrs : Attrs) (items : List Item) : M Text :=
  match kind with
  | .ordered => orderedList L re attrs items
  | .unordered => unorderedList L re attrs items
  | .labeled => labeledList L re attrs items
  | .callout => calloutList L re attrs items
  | .other => error .fail

/-! ### Tables -/

/-- types.go:3982-3990 `newDefaultTableColumn`. -/
def defaultCol : Col := ⟨1, "<".toList, "<".toList, 1, [], false⟩

/-- types.go:3994-4006: the columns of the attribute `cols`. -/
def colsOf : List (Option Col) → M (List Col)
  | [] => pure []
  | none :: _ => error .fail
  | some c :: l => do
    let r ← colsOf l
    return List.replicate c.multiplier c ++ r

/-- types.go:3993-4006: the attribute `cols`. -/
def colsAttr : Option AV → M (List Col)
  | some (.cols l) => colsOf l
  | some (.els []) => pure []
  | some (.els _) => error .fail
  | _ => pure []

/-- types.go:3992-4015 `Columns` (the widths are `Lib.widths`). -/
def columns (attrs : Attrs) (rows : List (List (List El))) : M (List Col) := do
  let r ← colsAttr (attrs.get "cols")
  return r ++ List.replicate ((rows.headD []).length - r.length) defaultCol

/-- table.go:144-164 `renderTableHeaderCell`, 213-233 `renderTableFooterCell`: the template is given. -/
def headCell (tm : Templates → Tm) (cell : List El) (col : Col) : M Text :=
  match cell with
  | [.paragraph _ els] => do
    let content ← renderInline re els
    exec L tm [("HAlign", .str col.halign), ("VAlign", .str col.valign), ("Content", .str content)]
  | _ => error .fail

/-- table.go:127-136, 195-204: the cells of the header, or of the footer; `i` is the index of the cell. -/
def headCells (tm : Templates → Tm) (cols : List Col) : Nat → List (List El) → M Text
  | _, [] => pure []
  | i, cell :: l =>
    match cols[i % cols.length]? with
    | none => error .panic
    | some col => do
      let t ← headCell L re tm cell col
      let u ← headCells tm cols (i + 1) l
      return t ++ u

/-- table.go:123-142 `renderTableHeader`, 191-211 `renderTableFooter`. -/
def headRow (rowTm cellTm : Templates → Tm) (cols : List Col) : Option (List (List El)) → M Text
  | none => pure []
  | some cells => do
    let content ← headCells L re cellTm cols 0 cells
    exec L rowTm [("Content", .str content)]

/-- table.go:283-326 `renderTableCellBlock`. -/
def cellBlock : El → M Text
  | .paragraph attrs els => do
    let content ← renderAll re els
    let _ ← elementTitle re attrs
    let t ← exec L (·.embeddedParagraph) [("Class", .str "tableblock".toList),
      ("CheckStyle", .str (checkStyle (AMap.get attrs "checkstyle"))), ("Content", .str content)]
    return Tmpl.trimSuffix "\n".toList t
  | e => do
    let t ← re e
    exec L (·.tableCellBlock) [("Content", .str t)]

/-- table.go:256-263: the elements of a cell. -/
def cellBlocks : List El → M Text
  | [] => pure []
  | e :: l => do
    let t ← cellBlock L re e
    let u ← cellBlocks l
    return t ++ u

/-- table.go:255-281 `renderTableCell`. -/
def tableCell (cell : List El) (col : Col) : M Text := do
  let content ← cellBlocks L re cell
  let env : Tmpl.Env := [("Content", .str content), ("HAlign", .str col.halign), ("VAlign", .str col.valign)]
  if col.style = "h".toList then exec L (·.tableHeaderCell) env else exec L (·.tableCell) env

/-- table.go:237-243: the cells of a row. -/
def rowCells (cols : List Col) : Nat → List (List El) → M Text
  | _, [] => pure []
  | i, cell :: l =>
    match cols[i]? with
    | none => error .panic
    | some col => do
      let t ← tableCell L re cell col
      let u ← rowCells cols (i + 1) l
      return t ++ u

/-- table.go:168-174, 235-253 `renderTableRow`: the rows. -/
def tableRows (cols : List Col) : List (List (List El)) → M Text
  | [] => pure []
  | row :: l => do
    let content ← rowCells L re cols 0 row
    let t ← exec L (·.tableRow) [("Content", .str content)]
    let u ← tableRows cols l
    return t ++ u

/-- table.go:166-189 `renderTableBody`. -/
def tableBody (cols : List Col) (rows : List (List (List El))) : M Text := do
  let content ← tableRows L re cols rows
  exec L (·.tableBody) [("Content", .str content)]

/-- table.go:13-121 `renderTable`. -/
def renderTable (attrs : Attrs) (header : Option (List (List El))) (rows : List (List (List El)))
    (footer : Option (List (List El))) : M Text := do
  let width := L.atoi (Tmpl.trimSuffix "%".toList (getStrD L.sprint attrs "width" []))
  let fit0 := if hasOption attrs "autowidth" then "fit-content".toList else "stretch".toList
  let fit := if width ≥ 100 then "stretch".toList else if width > 0 then [] else fit0
  let width := if width ≥ 100 then 0 else width
  let cap ← optCaption (has attrs "title") .table attrs
  let cols ← columns attrs rows
  let h ← headRow L re (·.tableHeader) (·.tableHeaderCell) cols header
  let f ← headRow L re (·.tableFooter) (·.tableFooterCell) cols footer
  let b ← tableBody L re cols rows
  let roles ← elementRoles re attrs
  let title ← elementTitle re attrs
  exec L (·.table) [("ID", .str (elementID attrs)), ("Title", .str title),
    ("Columns", .strs (L.widths (hasOption attrs "autowidth") cols)), ("Caption", .str cap), ("Roles", .str roles),
    ("Frame", .str (getStrD L.sprint attrs "frame" "all".toList)), ("Grid", .str (getStrD L.sprint attrs "grid" "all".toList)),
    ("Fit", .str fit), ("Float", .str (getStrD L.sprint attrs "float" [])), ("Stripes", .str (getStrD L.sprint attrs "stripes" [])),
    ("Width", .num width), ("Header", .str h), ("Body", .str b), ("Footer", .str f)]

/-! ### Sections and tables of contents -/

/-- section.go:46-71 `renderSectionTitle`. -/
def sectionTitle (level : Int) (attrs : Attrs) (title : List El) : M Text := do
  let content ← renderInline re title
  let c ← get
  exec L (·.sectionTitle) [("Level", .num level), ("LevelPlusOne", .num (level + 1)), ("ID", .str (elementID attrs)),
    ("Number", .str ((c.numbers.lookup ((getStr attrs "id").getD [])).getD [])), ("Content", .str (trim goSpace content))]

/-- section.go:12-44 `renderSection`. -/
def renderSection (level : Int) (attrs : Attrs) (title els : List El) : M Text := do
  let t ← sectionTitle L re level attrs title
  let content ← renderAll re els
  let roles ← elementRoles re attrs
  exec L (·.sectionContent) [("Header", .str t), ("Level", .num level), ("ID", .str (elementID attrs)), ("Roles", .str roles),
    ("Content", .str content)]

mutual
/-- table_of_contents.go:135-151 `renderTableOfContentsEntry`. -/
def tocEntry : Toc → M Text
  | .entry id _ title number children => do
    let content ← tocSections children
    exec L (·.tocEntry) [("Number", .str number), ("ID", .str id), ("Title", .str title), ("Content", .str content)]
/-- table_of_contents.go:119-126: the entries. -/
def tocEntries : List Toc → M Text
  | [] => pure []
  | e :: l => do
    let t ← tocEntry e
    let u ← tocEntries l
    return t ++ u
/-- table_of_contents.go:114-133 `renderTableOfContentsSections`. -/
def tocSections : List Toc → M Text
  | [] => pure []
  | .entry id level title number children :: l => do
    let content ← tocSections children
    let t ← exec L (·.tocEntry) [("Number", .str number), ("ID", .str id), ("Title", .str title), ("Content", .str content)]
    let u ← tocEntries l
    exec L (·.tocSection) [("Level", .num level), ("Content", .str (t ++ u))]
end

/-- table_of_contents.go:97-112 `renderTableOfContentsTitle`. -/
def tocTitleOf : Option AV → M Text
  | none => pure "Table of Contents".toList
  | some (.str t) => pure t
  | some (.els l) => renderAll re l
  | some _ => error .fail

/-- table_of_contents.go:97-112 `renderTableOfContentsTitle`. -/
def tocTitle : M Text := do
  let doc ← docAttrs
  tocTitleOf re (doc.get "toc-title")

/-- table_of_contents.go:67-95 `renderTableOfContents`; `none`: there is no table of contents, or its sections are nil. -/
def renderToc : Option (List Toc) → M Text
  | none => pure []
  | some l => do
    let title ← tocTitle re
    let sections ← tocSections L l
    if sections = [] then pure []
    else exec L (·.tocRoot) [("Title", .str title), ("Sections", .str sections)]

/-- preamble.go:8-32 `renderPreamble`. -/
def renderPreamble (els : List El) (toc : Option (List Toc)) : M Text := do
  let content ← renderAll re els
  let t ← renderToc L re toc
  let c ← get
  exec L (·.preamble) [("Wrapper", .flag c.hasHeader), ("Content", .str content), ("ToC", .str t)]

/-- user_macro.go:9-28 `renderUserMacro`. -/
def renderUserMacro (block : Bool) (name : String) (value : Text) (attrs : Attrs) (raw : Text) : M Text :=
  match L.userMacro name with
  | none => if block then renderParagraph L re pl [] [.str raw] else pure raw
  | some f => match f block value attrs raw with
    | some t => pure t
    | none => error .fail

/-- elements.go:46-117 `renderElement`. -/
def dispatch : El → M Text
  | .toc s => renderToc L re s
  | .sect level attrs title els => renderSection L re level attrs title els
  | .preamble els toc => renderPreamble L re els toc
  | .list kind attrs items => renderList L re kind attrs items
  | .callout ref => renderCallout L ref
  | .paragraph attrs els => renderParagraph L re pl attrs els
  | .xref id label => renderXref L re pl id label
  | .extXref loc attrs => renderExtXref L re loc attrs
  | .quoted kind attrs els => renderQuoted L re kind attrs els
  | .passthrough sp els => renderPassthrough re sp els
  | .imageBlock loc attrs => renderImageBlock L re loc attrs
  | .button attrs => renderButton L attrs
  | .inlineImage loc attrs => renderInlineImage L re loc attrs
  | .menu path => pure (renderMenu path)
  | .icon cls attrs => renderInlineIcon L cls attrs
  | .block kind attrs els => renderBlock L re kind attrs els
  | .table attrs header rows footer => renderTable L re attrs header rows footer
  | .link loc attrs => renderLink L re loc attrs
  | .str t => renderStr t
  | .footnoteRef id ref dup => renderFootnoteRef L id ref dup
  | .lineBreak => exec L (·.lineBreak) []
  | .userMacro block name value attrs raw => renderUserMacro L re pl block name value attrs raw
  | .indexTerm els => renderInline re els
  | .concealed => pure []
  | .thematicBreak => exec L (·.thematicBreak) []
  | .special name => renderSpecial name
  | .symbol name => renderSymbol name
  | .predefined name => renderPredefined name
  | .attrDecl name v => do
    modify fun c => { c with attrs := c.attrs.set name v }
    return []
  | .attrReset name => do
    modify fun c => { c with attrs := c.attrs.del name }
    return []
  | .frontMatter attrs => do
    modify fun c => { c with attrs := c.attrs.setAll attrs }
    return []
  | .blankLine => error .fail
  | .docHeader _ _ _ => error .fail
  | .other => error .fail

end

/-- elements.go:46-117 `renderElement`, to the depth `n`. -/
def renderElement (L : Lib) : Nat → El → M Text
  | 0, _ => error .fuel
  | n + 1, e => dispatch L (renderElement L n)
      (fun esc => plain L (if esc then some Escape.escapeString else none) n) e

/-! ### Documents -/

section
variable (L : Lib) (re : El → M Text) (pl : Bool → El → Except Err Text)

mutual
/-- table_of_contents.go:39-65 `prerenderTableOfContentsEntry`.  (The numbers are never nil.) -/
def prerenderEntry : Toc → M Toc
  | .entry id level _ _ children => do
    let children ← prerenderSections children
    let c ← get
    match c.refs.lookup id with
    | some (.els l) => do
      let title ← renderAll re l
      return .entry id level title ((c.numbers.lookup id).getD []) children
    | _ => error .fail
/-- table_of_contents.go:29-37 `prerenderTableOfContentsSections`. -/
def prerenderSections : List Toc → M (List Toc)
  | [] => pure []
  | e :: l => do
    let e ← prerenderEntry e
    let l ← prerenderSections l
    return e :: l
end

/-- footnote_reference.go:83-102 `renderFootnoteElement`. -/
def footnoteElement (n : Footnote) : M Text := do
  let content ← renderInline re n.els
  let content := replaceAll "\n".toList " ".toList (trim goSpace content)
  exec L (·.footnoteElement) [("ID", .num n.id), ("Ref", .str n.ref), ("Content", .str content)]

/-- footnote_reference.go:64-71: the notes. -/
def footnoteElements : List Footnote → M Text
  | [] => pure []
  | n :: l => do
    let t ← footnoteElement L re n
    let u ← footnoteElements l
    return t ++ u

/-- footnote_reference.go:59-81 `renderFootnotes`. -/
def renderFootnotes (notes : List Footnote) : M Text :=
  if notes.isEmpty then pure []
  else do
    let content ← footnoteElements L re notes
    exec L (·.footnotes) [("Content", .str content)]

/-- document_details.go:51-92: the authors from the `i`-th (the first is 1) on; `fuel` bounds their number. -/
def authorDetails (doc : Attrs) : Nat → Nat → M Text
  | 0, _ => error .fuel
  | fuel + 1, i =>
    let index := if i = 1 then "" else toString i
    let authorKey := if i = 1 then "author" else "author_" ++ index
    let emailKey := if i = 1 then "email" else "email_" ++ index
    match getStr doc authorKey with
    | none => pure []
    | some author => do
      let t ← exec L (·.documentAuthorDetails) [("Index", .str index.toList), ("Name", .str author),
        ("Email", .str ((getStr doc emailKey).getD []))]
      let u ← authorDetails doc fuel (i + 1)
      return (if i > 1 then "\n".toList else []) ++ t ++ u

/-- document_details.go:13-47 `renderDocumentDetails`. -/
def documentDetails : M Text := do
  let doc ← docAttrs
  if has doc "authors" then do
    let authors ← authorDetails L doc (doc.length + 1) 1
    exec L (·.documentDetails) [("Authors", .str authors), ("RevLabel", .str ((getStr doc "version-label").getD [])),
      ("RevNumber", .str ((getStr doc "revnumber").getD [])), ("RevDate", .str ((getStr doc "revdate").getD [])),
      ("RevRemark", .str ((getStr doc "revremark").getD []))]
  else pure []

/-- sgml.go:321-348 `renderDocumentHeader`, `renderDocumentHeaderTitle`. -/
def documentHeader : Option (Attrs × Option (List El) × List El) → M Text
  | none => pure []
  | some (_, title, _) => do
    let t ← renderAll re (title.getD [])
    let d ← documentDetails L
    exec L (·.articleHeader) [("Header", .str t), ("Details", .str d)]

/-- sgml.go:435-442 `lookupPreamble`, and 401: the table of contents is put in the first preamble. -/
def inPreamble (toc : Option (List Toc)) : List El → List El
  | [] => []
  | .preamble els _ :: l => .preamble els toc :: l
  | e :: l => e :: inPreamble toc l

/-- sgml.go:393-417: the elements to render, with the table of contents in its place. -/
def placeToc (doc : Attrs) (toc : Option (Option (List Toc))) (source : List El) : Except Err (List El) :=
  match doc.get "toc", toc with
  | some (.str t), some toc =>
    if t = "preamble".toList then .ok (inPreamble toc source)
    else if t = [] then .ok (.toc toc :: source)
    else .error .fail
  | some .nil, some toc => .ok (.toc toc :: source)
  | some _, some _ => .error .fail
  | _, _ => .ok source

/-- sgml.go:391-433 `renderDocumentBody`. -/
def documentBody (source : List El) (toc : Option (Option (List Toc))) (notes : List Footnote) : M Text := do
  let doc ← docAttrs
  let els ← M.lift (placeToc doc toc source)
  let t ← renderAll re els
  let u ← renderFootnotes L re notes
  return t ++ u

/-- sgml.go:350-387 `renderManpageHeader`. -/
def manpageHeader (head : Option (Option (List El))) (name : El) : M Text := do
  let h ← renderAll re ((head.getD none).getD [])
  match name with
  | .sect _ _ title els => do
    let n ← renderAll re title
    match els with
    | .paragraph attrs pels :: _ => do
      let t ← renderParagraph L re pl (AMap.set attrs "style" (.str "manpage".toList)) pels
      exec L (·.manpageHeader) [("Header", .str h), ("Name", .str n), ("Content", .str t), ("IncludeH1", .flag (!h.isEmpty))]
    | _ => error .panic
  | _ => error .panic

/-- sgml.go:216-273 `splitAndRender`: the header and the body. -/
def splitAndRender (wrap : Bool) (d : Doc) : M (Text × Text) := do
  let doc ← docAttrs
  let head := header d.elements
  if getStrD L.sprint doc "doctype" "article".toList = "manpage".toList then
    match bodyElements d.elements with
    | [] => error .panic
    | name :: rest =>
      if wrap then do
        let h ← manpageHeader L re pl (head.map (·.2.1)) name
        let b ← documentBody L re rest d.toc d.footnotes
        return (h, b)
      else do
        let h ← manpageHeader L re pl none name
        let b ← documentBody L re rest d.toc d.footnotes
        return ([], h ++ b)
  else do
    let h ← documentHeader L re head
    let b ← documentBody L re (bodyElements d.elements) d.toc d.footnotes
    return (h, b)

end

/-- types.go:319-352 `Authors`: `cur` is the result so far. -/
def authorsOf : List El → Option (List Author) → Except Err (Option (List Author))
  | [], cur => .ok cur
  | .attrDecl name v :: l, cur =>
    if name = "authors" then
      match v with
      | .authors a => .ok (some a)
      | _ => authorsOf l cur
    else if name = "email" then
      match v with
      | .str t => match cur with
        | none => authorsOf l (some [⟨none, t⟩])
        | some (a :: as) => authorsOf l (some ({ a with email := t } :: as))
        | some [] => .error .panic
      | _ => authorsOf l cur
    else if name = "author" then
      match v with
      | .str t => match cur with
        | none => authorsOf l (some [⟨some ⟨t, [], []⟩, []⟩])
        | some (⟨some n, e⟩ :: as) => authorsOf l (some (⟨some { n with first := t }, e⟩ :: as))
        | some _ => .error .panic
      | _ => authorsOf l cur
    else authorsOf l cur
  | _ :: l, cur => authorsOf l cur

/-- types.go:356-365 `Revision`. -/
def revisionOf : List El → Option (Text × Text × Text)
  | [] => none
  | .attrDecl name v :: l =>
    if name = "revision" then
      match v with
      | .revision a b c => some (a, b, c)
      | _ => revisionOf l
    else revisionOf l
  | _ :: l => revisionOf l

/-- types.go:527-539 `FullName`: the receiver may be nil. -/
def fullName : Author → Except Err Text
  | ⟨none, _⟩ => .error .panic
  | ⟨some n, _⟩ => .ok (n.first ++ (if n.middle = [] then [] else " ".toList ++ n.middle) ++
      (if n.last = [] then [] else " ".toList ++ n.last))

/-- types.go:473-478 `key`. -/
def authorKey (k : String) (i : Nat) : String := if i = 0 then k else k ++ "_" ++ toString (i + 1)

/-- types.go:448-470 `Expand`, from the `i`-th author on; the initials, which are not rendered, are not modelled. -/
def expandAuthors : Nat → List Author → Except Err Attrs
  | _, [] => .ok []
  | i, a :: l => do
    let full ← fullName a
    let r ← expandAuthors (i + 1) l
    let n := a.name.getD ⟨[], [], []⟩
    return [(authorKey "author" i, .str full), (authorKey "firstname" i, .str n.first)] ++
      (if n.middle = [] then [] else [(authorKey "middlename" i, .str n.middle)]) ++
      (if n.last = [] then [] else [(authorKey "lastname" i, .str n.last)]) ++
      (if a.email = [] then [] else [(authorKey "email" i, .str a.email)]) ++ r

/-- types.go:600-615 `Expand`. -/
def expandRevision : Text × Text × Text → Attrs
  | (a, b, c) => [("revision", .revision a b c)] ++ (if a = [] then [] else [("revnumber", .str a)]) ++
      (if b = [] then [] else [("revdate", .str b)]) ++ (if c = [] then [] else [("revremark", .str c)])

/-- The part of the configuration which the renderer uses (pkg/configuration/configuration.go:32-46). -/
structure Config where
  attrs : Attrs
  wrap : Bool
  css : List Text
  lastUpdated : Text

/-- context.go:33-38: the attributes of the authors. -/
def addAuthors (attrs : Attrs) : Option (List Author) → Except Err Attrs
  | none => .ok attrs
  | some l => match expandAuthors 0 l with
    | .ok e => .ok ((attrs.set "authors" (.authors l)).setAll e)
    | .error e => .error e

/-- context.go:39-41: the attributes of the revision. -/
def addRevision (attrs : Attrs) : Option (Text × Text × Text) → Attrs
  | none => attrs
  | some r => attrs.setAll (expandRevision r)

/-- context.go:32-42: the attributes of the header. -/
def addHeader (attrs : Attrs) : Option (Attrs × Option (List El) × List El) → Except Err Attrs
  | none => .ok attrs
  | some (_, _, els) => match authorsOf els none with
    | .error e => .error e
    | .ok a => match addAuthors attrs a with
      | .error e => .error e
      | .ok attrs => .ok (addRevision attrs (revisionOf els))

/-- context.go:24-31: the attributes of the configuration, and the default captions. -/
def defaultAttrs (cfg : Config) : Attrs :=
  (((cfg.attrs.set "figure-caption" (.str "Figure".toList)).set "example-caption" (.str "Example".toList)).set
    "table-caption" (.str "Table".toList)).set "version-label" (.str "version".toList)

/-- context.go:22-48 `newContext`. -/
def newContext (d : Doc) (cfg : Config) : Except Err Ctx :=
  match addHeader (defaultAttrs cfg) (header d.elements) with
  | .error e => .error e
  | .ok attrs => .ok (⟨attrs, false, 0, [], d.refs, (header d.elements).isSome, [], []⟩ : Ctx)

/-- sgml.go:52-59: the declarations in the header. -/
def headerDecls : List El → Attrs → Attrs
  | [], a => a
  | .attrDecl n v :: l, a => headerDecls l (a.set n v)
  | .attrReset n :: l, a => headerDecls l (a.del n)
  | _ :: l, a => headerDecls l a

/-- sgml.go:62-72: the declarations at the beginning of the document. -/
def leadingDecls : List El → Attrs → Attrs
  | .attrDecl n v :: l, a => leadingDecls l (a.set n v)
  | .attrReset n :: l, a => leadingDecls l (a.del n)
  | _, a => a

/-- sgml.go:297-302: the names of the authors. -/
def authorNames : List Author → Except Err (List Text)
  | [] => .ok []
  | a :: l => do
    let t ← fullName a
    let u ← authorNames l
    return t :: u

/-- sgml.go:292-304 `renderAuthors`. -/
def authorsMeta : Option (Attrs × Option (List El) × List El) → Except Err Text
  | none => .ok []
  | some (_, _, els) => match authorsOf els none with
    | .error e => .error e
    | .ok none => .ok []
    | .ok (some l) => match authorNames l with
      | .error e => .error e
      | .ok ts => .ok (joinWith "; ".toList ts)

/-- sgml.go:309-319 `renderDocumentTitle`, 47-49: the title of the document, as plain text. -/
def documentTitle (pl : El → Except Err Text) : Option (Attrs × Option (List El) × List El) → Except Err Text
  | some (_, some t, _) => plainInline pl t
  | _ => .ok "Untitled".toList

/-- sgml.go:52-76: the context, after the declarations at the beginning of the document. -/
def startContext (d : Doc) (c : Ctx) : Ctx :=
  { c with
    attrs := leadingDecls d.elements (match header d.elements with
      | some (_, _, els) => headerDecls els c.attrs
      | none => c.attrs),
    numbers := sectionNumbers d.elements }

/-- table_of_contents.go:14-27 `prerenderTableOfContents`. -/
def prerenderToc (re : El → M Text) : Option (Option (List Toc)) → M (Option (Option (List Toc)))
  | some (some l) => do
    let l ← prerenderSections re l
    return some (some l)
  | t => pure t

/-- sgml.go:275-290 `renderDocumentRoles`. -/
def documentRoles (re : El → M Text) : Option (Attrs × Option (List El) × List El) → M Text
  | some (a, _, _) => elementRoles re a
  | none => pure []

/-- sgml.go:78-91: the header, the body and the roles of the document. -/
def renderParts (L : Lib) (re : El → M Text) (pl : Bool → El → Except Err Text) (wrap : Bool) (d : Doc) : M (Text × Text × Text) := do
  let toc ← prerenderToc re d.toc
  let hb ← splitAndRender L re pl wrap { d with toc := toc }
  let roles ← documentRoles re (header d.elements)
  return (hb.1, hb.2, roles)

/-- sgml.go:98-128: the data of the whole page. -/
def articleEnv (L : Lib) (d : Doc) (cfg : Config) (c : Ctx) (title authors h b roles : Text) : Tmpl.Env :=
  [("Doctype", .str (getStrD L.sprint c.attrs "doctype" "article".toList)),
   ("Generator", .str "libasciidoc".toList), ("Description", .str (getStrD L.sprint c.attrs "description" [])),
   ("Title", .str title), ("Authors", .str authors), ("Header", .str h), ("Roles", .str roles),
   ("ID", .str (match header d.elements with | some (a, _, _) => elementID a | none => [])), ("Content", .str b),
   ("RevNumber", .str (getStrD L.sprint c.attrs "revnumber" [])), ("LastUpdated", .str cfg.lastUpdated),
   ("CSS", .strs cfg.css), ("IncludeHTMLBodyHeader", .flag (!has c.attrs "noheader")),
   ("IncludeHTMLBodyFooter", .flag (!has c.attrs "nofooter"))]

/-- sgml.go:92-138: the whole page, or the body. -/
def renderPage (L : Lib) (d : Doc) (cfg : Config) (title : Text) (parts : Text × Text × Text) (c : Ctx) : Except Err Text :=
  if cfg.wrap then
    match authorsMeta (header d.elements) with
    | .error e => .error e
    | .ok authors =>
      match L.tmpl.article.render L.lower (articleEnv L d cfg c title authors parts.1 parts.2.1 parts.2.2) with
      | some t => .ok t
      | none => .error .fail
  else .ok parts.2.1

/-- sgml.go:18-140 `Render`: what is written to the output (the metadata are not modelled). -/
def render (L : Lib) (n : Nat) (d : Doc) (cfg : Config) : Except Err Text :=
  let re := renderElement L n
  let pl := fun (esc : Bool) => plain L (if esc then some Escape.escapeString else none) n
  match newContext d cfg with
  | .error e => .error e
  | .ok c =>
    match documentTitle (pl true) (header d.elements) with
    | .error e => .error e
    | .ok title =>
      match renderParts L re pl cfg.wrap d (startContext d c) with
      | .error e => .error e
      | .ok (parts, c) => renderPage L d cfg title parts c

end Verif.Rend
