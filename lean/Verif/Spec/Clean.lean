import Verif.Model.Render
import Verif.Spec.Markup
import Verif.Proofs.TemplatesOk
/-!
Specification of the documents whose rendering is well-formed (C51).

The renderer writes strings as they are: it relies on the parser to have replaced the special characters of the text, and it
writes the values of attributes unchecked, some in the text, some in attribute values of the output.  `Clean` says what is
required of an element, `CleanDoc` what is required of a document, `LibOk` what is assumed of the functions of the standard library
and of the configuration.
-/
namespace Verif.Rend
open Verif.Html (Rules Markup Plain Value LowerOk templatesOf)

/-- Fit both for the text and for an attribute value: neither `<`, `>` nor `"`; no line break, if a tag has to be on one line. -/
def Safe (R : Rules) (t : Text) : Prop := Plain t ∧ Value R t

/-- No line break, if a tag has to be on one line. -/
def OneLine (R : Rules) (t : Text) : Prop := R.oneLine = true → '\n' ∉ t

/-- A value that is nil, a number, a boolean, or a safe string. -/
def Scalar (R : Rules) : AV → Prop
  | .str t => Safe R t
  | .nil => True
  | .flag _ => True
  | .num _ => True
  | _ => False

/-- The attributes whose values are written in the text only. -/
def textKeys : List String := ["title", "text", "xrefLabel", "label", "quoteAuthor", "quoteTitle"]

/-- The text of the path of a location made of strings and special characters. -/
def elsText : List El → Option Text
  | [] => some []
  | .str t :: l => (elsText l).map (t ++ ·)
  | .special n :: l => (elsText l).map (n ++ ·)
  | _ => none

def pathText : AV → Option Text
  | .str t => some t
  | .els l => elsText l
  | _ => none

/-- The text of a location has some property. -/
def LocOk (P : Text → Prop) (l : Loc) : Prop := ∃ t, pathText l.path = some t ∧ P (l.scheme ++ t)

/-- The elements of which the rendering is fit for an attribute value. -/
def Simple (R : Rules) : El → Prop
  | .str t => Safe R t
  | .special _ => True
  | .symbol _ => True
  | .predefined n => n ≠ "lt"
  | _ => False

def RoleOk (R : Rules) : AV → Prop
  | .str t => Safe R t
  | .els l => ∀ e ∈ l, Simple R e
  | _ => False

/-- A text made of the strings of `l`, and of arbitrary well-formed fragments in place of the other elements. -/
inductive Filled (R : Rules) : List El → Text → Prop
  | nil : Filled R [] []
  | str {t l u} : Filled R l u → Filled R (.str t :: l) (t ++ u)
  | other {e l t u} : e.isStr = false → Markup R t → Filled R l u → Filled R (e :: l) (t ++ u)

/-- The strings may contain tags, if those are balanced: they are in passthroughs. -/
def Balanced (R : Rules) (l : List El) : Prop := ∀ t, Filled R l t → Markup R t

/-- The elements which can be written without tags (for the title of the page). -/
inductive TextClean : El → Prop
  | str {t} : Plain t → TextClean (.str t)
  | special {n} : TextClean (.special n)
  | symbol {n} : (symbols.lookup n).isSome ∨ Plain n → TextClean (.symbol n)
  | quoted {k a l} : (∀ e ∈ l, TextClean e) → TextClean (.quoted k a l)
  | passthrough {sp l} : (∀ e ∈ l, TextClean e) → TextClean (.passthrough sp l)
  | icon {cls a} : (∀ v, AMap.get a "alt" = some v → v = .nil ∨ ∃ t, v = .str t ∧ Plain t) → TextClean (.icon cls a)
  | inlineImage {loc a} : (∀ v, AMap.get a "alt" = some v → v = .nil ∨ ∃ t, v = .str t ∧ Plain t) →
      TextClean (.inlineImage loc a)
  | link {loc a} : (∀ l, AMap.get a "text" = some (.els l) → ∀ e ∈ l, TextClean e) →
      (∀ t, AMap.get a "text" = some (.str t) → Plain t) → (∀ l, loc = some l → LocOk Plain l) → TextClean (.link loc a)
  | footnoteRef {i r d} : TextClean (.footnoteRef i r d)
  | blankLine : TextClean .blankLine

/-- The entries of a table of contents, as they are rendered. -/
inductive TocOk (R : Rules) : Toc → Prop
  | entry {id level title number children} : Value R id → Markup R title → Markup R number → (∀ e ∈ children, TocOk R e) →
      TocOk R (.entry id level title number children)

/-- The identifiers in a table of contents. -/
inductive TocIds (R : Rules) : Toc → Prop
  | entry {id level title number children} : Value R id → (∀ e ∈ children, TocIds R e) →
      TocIds R (.entry id level title number children)

def admonitionNames : List (Text × Text) :=
  [("CAUTION".toList, "caution".toList), ("IMPORTANT".toList, "important".toList), ("NOTE".toList, "note".toList),
   ("TIP".toList, "tip".toList), ("WARNING".toList, "warning".toList)]

def admonitionStyles : List Text := admonitionNames.map (·.1)

def admonitionCaptions : List String :=
  ["caution-caption", "important-caption", "note-caption", "tip-caption", "warning-caption"]

/-- The attributes of the document which are written in the output: `author_2`, `email_2`, … and `…-caption` too. -/
def printedKeys : List String :=
  ["author", "email", "revnumber", "revdate", "revremark", "version-label", "icons", "iconsdir", "imagesdir", "icontype",
   "source-highlighter", "description", "doctype", "toc-title"]

def Printed (k : String) : Prop :=
  k ∈ printedKeys ∨ "author_".toList.isPrefixOf k.toList ∨ "email_".toList.isPrefixOf k.toList ∨
    "-caption".toList.isSuffixOf k.toList

def AuthorOk (R : Rules) (a : Author) : Prop :=
  Safe R a.email ∧ ∀ n, a.name = some n → Safe R n.first ∧ Safe R n.middle ∧ Safe R n.last

/-- What is required of the attributes of the document.  `images`: whether icons may be images. -/
structure DocValue (R : Rules) (images : Bool) (k : String) (v : AV) : Prop where
  printed : Printed k → Scalar R v
  icons : k = "icons" → ∃ t, v = .str t ∧ (images = false → t ≠ "image".toList ∧ t ≠ [])
  captions : images = true → k ∈ admonitionCaptions → ∃ t, v = .str t ∧ t ≠ []
  imagesdir : k = "imagesdir" → ∀ t, v = .str t → '%' ∉ t
  hardbreaks : k = "hardbreaks" → R.oneLine = true
  options : k = "options" → ∀ l, v ≠ .options l
  authors : k = "authors" → ∀ l, v = .authors l → ∀ a ∈ l, AuthorOk R a
  revision : k = "revision" → ∀ a b c, v = .revision a b c → Safe R a ∧ Safe R b ∧ Safe R c

def ColOk (c : Col) : Prop :=
  (c.halign = "<".toList ∨ c.halign = "^".toList ∨ c.halign = ">".toList) ∧
  (c.valign = "<".toList ∨ c.valign = "^".toList ∨ c.valign = ">".toList)

/-- The caption of an admonition whose icon is an image. -/
def IconCaption (a : Attrs) : Prop := ∀ v, AMap.get a "caption" = some v → ∃ t, v = .str t ∧ t ≠ []

/-- The last item of a horizontal list has a content. -/
def LastHasContent (items : List Item) : Prop :=
  ∀ i, items.getLast? = some i → ∃ a l r, i.els = .paragraph a l :: r

mutual
/-- The value of an attribute of an element. -/
inductive CleanV (R : Rules) (images : Bool) : String → AV → Prop
  | scalar {k v} : Scalar R v → CleanV R images k v
  | text {k t} : k ∈ textKeys → Plain t → CleanV R images k (.str t)
  | els {k l} : k ∈ textKeys → (∀ e ∈ l, Clean R images e) → CleanV R images k (.els l)
  | roles {l} : (∀ v ∈ l, RoleOk R v) → CleanV R images "roles" (.roles l)
  | options {l} : CleanV R images "options" (.options l)
  | check {t} : (R.xml = true → t ≠ "checked-interactive".toList ∧ t ≠ "unchecked-interactive".toList) →
      CleanV R images "checkstyle" (.check t)
  | cols {l} : (∀ c, some c ∈ l → ColOk c) → CleanV R images "cols" (.cols l)
  | noCols : CleanV R images "cols" (.els [])

/-- The value of an attribute of the document. -/
inductive DocV (R : Rules) (images : Bool) : String → AV → Prop
  | value {k v} : DocValue R images k v → DocV R images k v
  | tocTitle {l} : (∀ e ∈ l, Clean R images e) → DocV R images "toc-title" (.els l)
  | tocTitleText {t} : Plain t → DocV R images "toc-title" (.str t)

/-- An element whose rendering is well-formed. -/
inductive Clean (R : Rules) (images : Bool) : El → Prop
  | str {t} : Plain t → Clean R images (.str t)
  | special {n} : Clean R images (.special n)
  | symbol {n} : Clean R images (.symbol n)
  | predefined {n} : n ≠ "lt" → n ≠ "gt" → Clean R images (.predefined n)
  | quoted {k a l} : (∀ k v, AMap.get a k = some v → CleanV R images k v) → (∀ e ∈ l, Clean R images e) →
      Clean R images (.quoted k a l)
  | passthrough {sp l} : (∀ e ∈ l, e.isStr = false → Clean R images e) → (sp = false → Balanced R l) →
      Clean R images (.passthrough sp l)
  | link {loc a} : (∀ k v, AMap.get a k = some v → CleanV R images k v) → (∀ l, loc = some l → LocOk (OneLine R) l) →
      Clean R images (.link loc a)
  | xref {id label} : (∀ t, id = .str t → Safe R t) → (∀ t, label = .str t → Plain t) → Clean R images (.xref id label)
  | extXref {loc a} : (∀ k v, AMap.get a k = some v → CleanV R images k v) → (∀ l, loc = some l → LocOk (Safe R) l) →
      Clean R images (.extXref loc a)
  | footnoteRef {i r d} : Safe R r → Clean R images (.footnoteRef i r d)
  | inlineImage {loc a} : (∀ k v, AMap.get a k = some v → CleanV R images k v) → LocOk (Safe R) loc →
      ((∃ t, AMap.get a "alt" = some (.str t)) ∨ LocOk (fun t => '%' ∉ t) loc) →
      (∀ t, AMap.get a "title" = some (.str t) → Safe R t) →
      (∀ l, AMap.get a "title" = some (.els l) → ∀ e ∈ l, Simple R e) → Clean R images (.inlineImage loc a)
  | imageBlock {loc a} : (∀ k v, AMap.get a k = some v → CleanV R images k v) → LocOk (Safe R) loc →
      ((∃ t, AMap.get a "alt" = some (.str t)) ∨ LocOk (fun t => '%' ∉ t) loc) → Clean R images (.imageBlock loc a)
  | icon {cls a} : (∀ k v, AMap.get a k = some v → CleanV R images k v) → Safe R cls →
      (∀ v, AMap.get a "title" = some v → Scalar R v) →
      (∀ l, AMap.get a "roles" = some (.roles l) → ∀ v ∈ l, ∃ t, v = .str t) →
      (images = true → cls ≠ [] ∧ ∀ v, AMap.get a "alt" = some v → ∃ t, v = .str t ∧ t ≠ []) → Clean R images (.icon cls a)
  | button {a t} : AMap.get a "label" = some (.str t) → Plain t → Clean R images (.button a)
  | menu {path} : path ≠ [] → (∀ t ∈ path, Plain t) → Clean R images (.menu path)
  | lineBreak : Clean R images .lineBreak
  | thematicBreak : Clean R images .thematicBreak
  | indexTerm {l} : (∀ e ∈ l, Clean R images e) → Clean R images (.indexTerm l)
  | concealed : Clean R images .concealed
  | callout {n} : Clean R images (.callout n)
  | userMacro {block name value a raw} : Plain raw → Clean R images (.userMacro block name value a raw)
  | paragraph {a l} : (∀ k v, AMap.get a k = some v → CleanV R images k v) →
      (∀ e ∈ l, e.isStr = false → Clean R images e) → Balanced R l →
      (hasOption a "hardbreaks" = true → R.oneLine = true) →
      (getStr a "style" = some "verse".toList → ∀ e ∈ l, TextClean e) →
      (getStr a "style" = some "literal".toList ∨ getStr a "style" = some "literal_paragraph".toList → AMap.get a "roles" = none) →
      (images = true → (∃ t ∈ admonitionStyles, getStr a "style" = some t) → IconCaption a) → Clean R images (.paragraph a l)
  | block {k a l} : (∀ k v, AMap.get a k = some v → CleanV R images k v) →
      (∀ e ∈ l, e.isStr = false → Clean R images e) → Balanced R l →
      (k = .literal → AMap.get a "roles" = none) →
      (k = .markdownQuote → R.xml = true → AMap.get a "quoteAuthor" = none ∨ AMap.get a "quoteTitle" = none) →
      (k = .«example» → images = true → has a "style" = true → (∃ t ∈ admonitionStyles, getStr a "style" = some t) ∧ IconCaption a) →
      Clean R images (.block k a l)
  | list {k a items} : (∀ k v, AMap.get a k = some v → CleanV R images k v) →
      (∀ i ∈ items, ∀ e ∈ i.els, Clean R images e) → (∀ i ∈ items, ∀ e ∈ i.term, Clean R images e) →
      (∀ i ∈ items, Safe R i.style) → (R.xml = true → k = .ordered → hasOption a "reversed" = false) →
      (k = .labeled → getStr a "style" = some "horizontal".toList → LastHasContent items) → Clean R images (.list k a items)
  | table {a header rows footer} : (∀ k v, AMap.get a k = some v → CleanV R images k v) →
      (∀ cells, header = some cells → ∀ c ∈ cells, ∀ e ∈ c, Clean R images e) →
      (∀ row ∈ rows, ∀ c ∈ row, ∀ e ∈ c, Clean R images e) →
      (∀ cells, footer = some cells → ∀ c ∈ cells, ∀ e ∈ c, Clean R images e) → Clean R images (.table a header rows footer)
  | sect {level a title l} : (∀ k v, AMap.get a k = some v → CleanV R images k v) → (∀ e ∈ title, Clean R images e) →
      (∀ e ∈ l, Clean R images e) → Clean R images (.sect level a title l)
  | preamble {l toc} : (∀ e ∈ l, Clean R images e) → (∀ s, toc = some s → ∀ e ∈ s, TocOk R e) → Clean R images (.preamble l toc)
  | toc {toc} : (∀ s, toc = some s → ∀ e ∈ s, TocOk R e) → Clean R images (.toc toc)
  | attrDecl {name v} : DocV R images name v → Clean R images (.attrDecl name v)
  | attrReset {name} : Clean R images (.attrReset name)
  | frontMatter {a} : (∀ p ∈ a, DocV R images p.1 p.2) → Clean R images (.frontMatter a)
  | blankLine : Clean R images .blankLine
  | docHeader {a title l} : (∀ k v, AMap.get a k = some v → CleanV R images k v) →
      (∀ t, title = some t → ∀ e ∈ t, Clean R images e) → (∀ t, title = some t → ∀ e ∈ t, TextClean e) →
      (∀ e ∈ l, Clean R images e) → Clean R images (.docHeader a title l)
end

/-- The target of a cross reference: the title of a section or of a block. -/
inductive RefOk (R : Rules) (images : Bool) : AV → Prop
  | str {t} : Plain t → RefOk R images (.str t)
  | els {l} : (∀ e ∈ l, Clean R images e) → (∀ loc a, .link loc a ∈ l → TextClean (.link loc a)) → RefOk R images (.els l)
  | other {v} : (∀ t, v ≠ .str t) → (∀ l, v ≠ .els l) → RefOk R images v

/-- A document, with its configuration, whose rendering is well-formed. -/
structure CleanDoc (R : Rules) (images : Bool) (d : Doc) (cfg : Config) : Prop where
  elements : ∀ e ∈ d.elements, Clean R images e
  refs : ∀ p ∈ d.refs, RefOk R images p.2
  footnotes : ∀ n ∈ d.footnotes, ∀ e ∈ n.els, Clean R images e
  toc : ∀ s, d.toc = some (some s) → ∀ e ∈ s, TocIds R e
  attrs : ∀ k v, cfg.attrs.get k = some v → DocV R images k v
  css : ∀ t ∈ cfg.css, Value R t
  lastUpdated : Plain cfg.lastUpdated

/-- What is assumed of the functions from elsewhere. -/
structure LibOk (R : Rules) (L : Lib) : Prop where
  /-- the templates are those of the language -/
  tmpl : L.tmpl = templatesOf R
  lower : LowerOk R L.lower
  lowerPlain : ∀ t, Plain t → Plain (L.lower t)
  lowerStyles : ∀ p ∈ admonitionNames, L.lower p.1 = p.2 ∧ L.lower p.2 = p.2
  sprintFlag : ∀ b, Safe R (L.sprint (.flag b))
  sprintNum : ∀ n, Safe R (L.sprint (.num n))
  sprintRoles : ∀ l, (∀ v ∈ l, ∃ t, v = .str t ∧ Safe R t) → Safe R (L.sprint (.roles l))
  altOf : ∀ t u, Safe R t → '%' ∉ t → L.altOf t = some u → Safe R u
  join : ∀ t u, Safe R t → Safe R u → Safe R (L.join t u)
  widths : ∀ b cols, ∀ t ∈ L.widths b cols, Value R t
  highlight : ∀ a b i t u, L.highlight a b i t = some u → Markup R u
  userMacro : ∀ name f, L.userMacro name = some f → ∀ b v a r t, f b v a r = some t → Markup R t
  dataUri : ∀ t, Safe R t → Safe R (L.dataUri t) ∧ ('%' ∉ t → '%' ∉ L.dataUri t)

/-- A well-formed page: the declaration of the document type, then a well-formed fragment. -/
def Page (R : Rules) (t : Text) : Prop := ∃ u, t = "<!DOCTYPE html>\n".toList ++ u ∧ Markup R u

end Verif.Rend
