import Verif.Model.Render
/-!
Specification of the documents whose rendering ends, does not panic, and does not fail (C53, C54, C55).
-/
namespace Verif.Rend
open Verif (Text)

/-! ### The elements that an element contains -/

/-- The elements in a role. -/
def roleEls : AV → List El
  | .els l => l
  | _ => []

/-- The elements in the value of an attribute. -/
def valueEls : AV → List El
  | .els l => l
  | .roles l => l.flatMap roleEls
  | _ => []

/-- The elements in the values of attributes. -/
def attrEls (a : List (String × AV)) : List El := a.flatMap fun p => valueEls p.2

/-- The elements directly within an element (user macros that are not defined are rendered as a string). -/
def kids : El → List El
  | .quoted _ a els => attrEls a ++ els
  | .passthrough _ els => els
  | .link _ a => attrEls a
  | .extXref _ a => attrEls a
  | .inlineImage _ a => attrEls a
  | .imageBlock _ a => attrEls a
  | .indexTerm els => els
  | .userMacro _ _ _ _ raw => [.str raw]
  | .paragraph a els => attrEls a ++ els
  | .block _ a els => attrEls a ++ els
  | .list _ a items => attrEls a ++ items.flatMap fun i => i.term ++ i.els
  | .table a header rows footer => attrEls a ++ (header.getD []).flatten ++ rows.flatten.flatten ++ (footer.getD []).flatten
  | .sect _ a title els => attrEls a ++ title ++ els
  | .preamble els _ => els
  | .attrDecl _ v => valueEls v
  | .frontMatter a => attrEls a
  | .docHeader a title els => attrEls a ++ title.getD [] ++ els
  | _ => []

/-- The elements which plain text is made of: those of quoted text, of passthroughs, and of the text of links. -/
def plainKids : El → List El
  | .quoted _ _ els => els
  | .passthrough _ els => els
  | .link _ a => match AMap.get a "text" with
    | some (.els l) => l
    | _ => []
  | _ => []

/-- `P` holds of the element, and of all those within it. -/
inductive Every (sub : El → List El) (P : El → Prop) : El → Prop
  | intro {e} : P e → (∀ k ∈ sub e, Every sub P k) → Every sub P e

/-! ### Rendering ends: references are not circular -/

/-- What the rendering of an element may have to render although it is not within the element. -/
inductive Label where
  /-- the title of the target of a cross reference without label -/
  | ref (id : Text)
  /-- the title of the table of contents: an attribute of the document -/
  | tocTitle

def needs : El → Option Label
  | .xref (.str _) (.str _) => none
  | .xref (.str id) _ => some (.ref id)
  | .toc _ => some .tocTitle
  | .preamble _ _ => some .tocTitle
  | _ => none

/-- Everything that the element needs is ranked below `k`. -/
def Below (rank : Label → Nat) (k : Nat) (e : El) : Prop := Every kids (fun x => ∀ l, needs x = some l → rank l < k) e

/-- The title of the table of contents, if it is this attribute, only needs what is ranked below it. -/
def TitleBelow (rank : Label → Nat) (name : String) (v : AV) : Prop :=
  name = "toc-title" → ∀ e ∈ valueEls v, Below rank (rank .tocTitle) e

/-- The declarations of the title of the table of contents only need what is ranked below it. -/
def DeclBelow (rank : Label → Nat) : El → Prop
  | .attrDecl name v => TitleBelow rank name v
  | .frontMatter a => ∀ p ∈ a, TitleBelow rank p.1 p.2
  | _ => True

/-- References are not circular: they can be ranked, such that the title of a target only needs references of lower rank. -/
structure Ranked (rank : Label → Nat) (d : Doc) (cfg : Config) : Prop where
  refs : ∀ p ∈ d.refs, ∀ e ∈ valueEls p.2, Below rank (rank (.ref p.1)) e
  config : ∀ p ∈ cfg.attrs, TitleBelow rank p.1 p.2 ∧ ∀ e ∈ valueEls p.2, Every kids (DeclBelow rank) e
  elements : ∀ e ∈ d.elements, Every kids (DeclBelow rank) e
  notes : ∀ n ∈ d.footnotes, ∀ e ∈ n.els, Every kids (DeclBelow rank) e
  titles : ∀ p ∈ d.refs, ∀ e ∈ valueEls p.2, Every kids (DeclBelow rank) e

/-! ### Rendering does not panic -/

/-- The number of columns given by the attribute `cols`. -/
def colsCount : Option AV → Nat
  | some (.cols l) => (l.map fun c => match c with | some c => c.multiplier | none => 0).sum
  | _ => 0

/-- The number of columns of a table. -/
def columnCount (a : Attrs) (rows : List (List (List El))) : Nat :=
  max (colsCount (AMap.get a "cols")) (rows.headD []).length

/-- Special characters in verses: `[verse]` paragraphs must not contain any. -/
def NoSpecial (e : El) : Prop := Every plainKids (fun x => ∀ n, x ≠ .special n) e

/-- The first element of a manual page is a section which begins with a paragraph. -/
def ManpageShape (d : Doc) : Prop :=
  ∃ level a title pa pels els rest, bodyElements d.elements = .sect level a title (.paragraph pa pels :: els) :: rest

/-- The document has the shape of a manual page, or this attribute does not say that it is one. -/
def DoctypeOk (L : Lib) (d : Doc) (name : String) (v : AV) : Prop :=
  name = "doctype" → ManpageShape d ∨ getStrD L.sprint [(name, v)] name [] ≠ "manpage".toList

/-- What must hold of an element not to panic. -/
def PanicFree (L : Lib) (d : Doc) : El → Prop
  | .paragraph a els => getStr a "style" = some "verse".toList → ∀ e ∈ els, NoSpecial e
  | .list .ordered a items => items ≠ [] ∨ (getStr a "style").isSome
  | .table a header rows footer =>
    (∀ r ∈ rows, r.length ≤ columnCount a rows) ∧ (columnCount a rows = 0 → header.getD [] = [] ∧ footer.getD [] = [])
  | .attrDecl name v => DoctypeOk L d name v
  | .frontMatter a => ∀ p ∈ a, DoctypeOk L d p.1 p.2
  | _ => True

/-- The declarations of authors in a header: an e-mail address is preceded by an author, and all authors have a name.  `seen`:
whether an author has been declared. -/
def AuthorsOk : Bool → List El → Prop
  | _, [] => True
  | seen, .attrDecl name (.str _) :: l =>
    if name = "author" then AuthorsOk true l
    else if name = "email" then seen = true ∧ AuthorsOk seen l
    else AuthorsOk seen l
  | seen, .attrDecl name (.authors as) :: l => if name = "authors" then ∀ a ∈ as, a.name ≠ none else AuthorsOk seen l
  | seen, _ :: l => AuthorsOk seen l

/-- The elements of the header. -/
def headerEls (d : Doc) : List El :=
  match header d.elements with
  | some (_, _, els) => els
  | none => []

/-- What must hold of a document not to panic. -/
structure NoPanic (L : Lib) (d : Doc) (cfg : Config) : Prop where
  elements : ∀ e ∈ d.elements, Every kids (PanicFree L d) e
  refs : ∀ p ∈ d.refs, ∀ e ∈ valueEls p.2, Every kids (PanicFree L d) e
  notes : ∀ n ∈ d.footnotes, ∀ e ∈ n.els, Every kids (PanicFree L d) e
  config : ∀ p ∈ cfg.attrs, DoctypeOk L d p.1 p.2 ∧ ∀ e ∈ valueEls p.2, Every kids (PanicFree L d) e
  authors : AuthorsOk false (headerEls d)

/-! ### Rendering does not fail -/

/-- A string, or elements. -/
def Textual : AV → Prop
  | .str _ => True
  | .els _ => True
  | _ => False

def TitleOk (a : Attrs) : Prop := ∀ v, AMap.get a "title" = some v → Textual v
def RolesOk (a : Attrs) : Prop := ∀ l, AMap.get a "roles" = some (.roles l) → ∀ r ∈ l, Textual r

/-- The elements which can be written as plain text. -/
def PlainKind : El → Prop
  | .quoted _ _ _ => True
  | .icon _ _ => True
  | .inlineImage _ _ => True
  | .link _ _ => True
  | .blankLine => True
  | .special _ => True
  | .symbol _ => True
  | .str _ => True
  | .footnoteRef id _ _ => id ≠ -1
  | .passthrough _ _ => True
  | _ => False

def Plainable (e : El) : Prop := Every plainKids PlainKind e

/-- The targets of cross references: a string or elements, whose links can be written as plain text. -/
def RefValueOk : AV → Prop
  | .str _ => True
  | .els l => ∀ loc a, El.link loc a ∈ l → Plainable (.link loc a)
  | _ => False

/-- The alternative text of an image is given, or can be computed from its location. -/
def AltOk (L : Lib) (loc : Loc) (a : Attrs) : Prop :=
  (getStr a "alt").isSome ∨
    ∀ pre, (L.altOf (locString L pre loc)).isSome ∧ (L.altOf (L.dataUri (locString L pre loc))).isSome

/-- The elements of source code which may be highlighted. -/
def SourceKind : El → Prop
  | .str _ => True
  | .special _ => True
  | .callout _ => True
  | _ => False

/-- Source code without language, or which can be highlighted. -/
def SourceOk (L : Lib) (a : Attrs) (els : List El) : Prop :=
  getStrD L.sprint a "language" [] = [] ∨
    (∀ e ∈ els, SourceKind e) ∧ ∀ doc i t, (L.highlight doc a i t).isSome

/-- The elements of a list are of its kind; its style is known. -/
def ListOk (k : ListKind) (a : Attrs) (items : List Item) : Prop :=
  match k with
  | .ordered => ∀ i ∈ items, i.kind = .ordered
  | .unordered => ∀ i, items.head? = some i → i.kind = .unordered
  | .labeled => (∀ i ∈ items, i.kind = .labeled) ∧
      ∀ v, AMap.get a "style" = some v → v = .str "qanda".toList ∨ v = .str "horizontal".toList
  | .callout => ∀ i ∈ items, i.kind = .callout
  | .other => False

/-- A cell of the header, or of the footer, is a paragraph. -/
def HeadOk' (cells : Option (List (List El))) : Prop := ∀ c ∈ cells.getD [], ∃ a els, c = [.paragraph a els]

def ColsOk : Option AV → Prop
  | some (.cols l) => none ∉ l
  | some (.els l) => l = []
  | _ => True

/-- The values of icons, of the title of the table of contents and of its place are known. -/
def DocAttrOk (L : Lib) (d : Doc) (name : String) (v : AV) : Prop :=
  (name = "icons" → getStrD L.sprint [(name, v)] name [] ∈ ["font".toList, "text".toList, "image".toList, []]) ∧
  (name = "toc-title" → Textual v) ∧
  (name = "toc" → d.toc ≠ none → v = .nil ∨ v = .str [] ∨ v = .str "preamble".toList)

/-- What must hold of an element to be rendered without error. -/
def FailFree (L : Lib) (d : Doc) : El → Prop
  | .special n => n ∈ ["&".toList, "<".toList, ">".toList]
  | .symbol n => (symbols.lookup n).isSome
  | .quoted k a _ => k ≠ .other ∧ RolesOk a
  | .link _ a => RolesOk a
  | .xref id label => ∃ t, id = .str t ∧ ((∃ u, label = .str u) ∨ ∀ v, d.refs.lookup t = some v → RefValueOk v)
  | .inlineImage loc a => AltOk L loc a ∧ TitleOk a ∧ RolesOk a
  | .imageBlock loc a => AltOk L loc a ∧ TitleOk a ∧ RolesOk a
  | .userMacro block name value a raw => ∀ f, L.userMacro name = some f → (f block value a raw).isSome
  | .paragraph a els => TitleOk a ∧ RolesOk a ∧ (getStr a "style" = some "source".toList → SourceOk L a els) ∧
      (getStr a "style" = some "verse".toList → ∀ e ∈ els, Plainable e)
  | .block k a els => k ≠ .other ∧ TitleOk a ∧ RolesOk a ∧
      (k = .listing → getStr a "style" = some "source".toList → SourceOk L a els)
  | .list k a items => TitleOk a ∧ RolesOk a ∧ ListOk k a items
  | .table a header _ footer => TitleOk a ∧ RolesOk a ∧ ColsOk (AMap.get a "cols") ∧ HeadOk' header ∧ HeadOk' footer
  | .sect _ a _ _ => RolesOk a
  | .attrDecl name v => DocAttrOk L d name v
  | .frontMatter a => ∀ p ∈ a, DocAttrOk L d p.1 p.2
  | .blankLine => False
  | .docHeader _ _ _ => False
  | .other => False
  | _ => True

mutual
/-- The entries of a table of contents are those of sections whose title is known. -/
def TocKnown (d : Doc) : Toc → Prop
  | .entry id _ _ _ children => (∃ l, d.refs.lookup id = some (.els l)) ∧ TocsKnown d children
def TocsKnown (d : Doc) : List Toc → Prop
  | [] => True
  | t :: l => TocKnown d t ∧ TocsKnown d l
end

/-- What must hold of a document to be rendered without error. -/
structure NoFail (L : Lib) (d : Doc) (cfg : Config) : Prop where
  body : ∀ e ∈ bodyElements d.elements, Every kids (FailFree L d) e
  header : ∀ a t els, header d.elements = some (a, t, els) → RolesOk a ∧
    (∀ e ∈ attrEls a ++ t.getD [] ++ els, Every kids (FailFree L d) e) ∧ ∀ e ∈ t.getD [], Plainable e
  refs : ∀ p ∈ d.refs, ∀ e ∈ valueEls p.2, Every kids (FailFree L d) e
  notes : ∀ n ∈ d.footnotes, ∀ e ∈ n.els, Every kids (FailFree L d) e
  config : ∀ p ∈ cfg.attrs, DocAttrOk L d p.1 p.2 ∧ ∀ e ∈ valueEls p.2, Every kids (FailFree L d) e
  toc : ∀ l, d.toc = some (some l) → TocsKnown d l

end Verif.Rend
