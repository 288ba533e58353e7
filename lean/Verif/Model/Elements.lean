import Verif.Model.Escape
import Verif.Model.Captions
/-!
The elements of a parsed document, as the renderer receives them (pkg/types/types.go), with the accessors of
pkg/types/attributes.go and the functions on strings which the renderer uses.
-/
namespace Verif.Rend

/-- types.go:2735-2766 `QuotedTextKind`: single and double quotes are rendered alike. -/
inductive QuotedKind where
  | bold | italic | marked | monospace | subscript | superscript | other
deriving DecidableEq, Repr

/-- types.go:2228-2262: the kinds of delimited blocks. -/
inductive BlockKind where
  | «example» | fenced | literal | listing | markdownQuote | pass | quote | verse | sidebar | «open» | other
deriving DecidableEq, Repr

/-- types.go:986-1000 `ListKind`. -/
inductive ListKind where
  | ordered | unordered | labeled | callout | other
deriving DecidableEq, Repr

/-- types.go:486-489, 503-507: an author; `name` is nil if the author is only known by an e-mail address. -/
structure FullName where
  first : Text
  middle : Text
  last : Text
deriving DecidableEq, Repr

structure Author where
  name : Option FullName
  email : Text
deriving DecidableEq, Repr

/-- types.go:3945-3953 `TableColumn` (the `Width` is computed by `Table.Columns`). -/
structure Col where
  multiplier : Nat
  halign : Text
  valign : Text
  weight : Int
  style : Text
  autowidth : Bool
deriving DecidableEq, Repr

/-- types.go:227-233 `ToCSection`: the title and the number are set by the renderer. -/
inductive Toc where
  | entry (id : Text) (level : Int) (title : Text) (number : Text) (children : List Toc)

mutual
/-- The value of an attribute: Go `interface{}`.  `roles` is `types.Roles`, `options` is `types.Options`, `check` is
`types.UnorderedListElementCheckStyle`, `cols` is the `[]interface{}` of the attribute `cols` (`none`: not a `*TableColumn`). -/
inductive AV where
  | nil
  | str (t : Text)
  | flag (b : Bool)
  | num (n : Int)
  | els (l : List El)
  | roles (l : List AV)
  | options (l : List AV)
  | check (t : Text)
  | cols (l : List (Option Col))
  | authors (l : List Author)
  | revision (number date remark : Text)
  | other

/-- types.go:3519-3522 `Location`.  `SetPathPrefix` changes the location, which may be shared or rendered more than once: `id`
identifies the location (a pointer). -/
inductive Loc where
  | loc (id : Nat) (scheme : Text) (path : AV)

/-- The elements: Go `interface{}`, as distinguished by elements.go:46-117 and by render_plain_text.go:52-82.  A pointer to a
location may be nil. -/
inductive El where
  | str (t : Text)
  | special (name : Text)
  | symbol (name : Text)
  | predefined (name : String)
  | quoted (kind : QuotedKind) (attrs : List (String × AV)) (els : List El)
  | passthrough (singlePlus : Bool) (els : List El)
  | link (loc : Option Loc) (attrs : List (String × AV))
  | xref (id label : AV)
  | extXref (loc : Option Loc) (attrs : List (String × AV))
  | footnoteRef (id : Int) (ref : Text) (duplicate : Bool)
  | inlineImage (loc : Loc) (attrs : List (String × AV))
  | imageBlock (loc : Loc) (attrs : List (String × AV))
  | icon (cls : Text) (attrs : List (String × AV))
  | button (attrs : List (String × AV))
  | menu (path : List Text)
  | lineBreak
  | thematicBreak
  | indexTerm (els : List El)
  | concealed
  | callout (ref : Int)
  | userMacro (block : Bool) (name : String) (value : Text) (attrs : List (String × AV)) (raw : Text)
  | paragraph (attrs : List (String × AV)) (els : List El)
  | block (kind : BlockKind) (attrs : List (String × AV)) (els : List El)
  | list (kind : ListKind) (attrs : List (String × AV)) (items : List Item)
  | table (attrs : List (String × AV)) (header : Option (List (List El))) (rows : List (List (List El)))
      (footer : Option (List (List El)))
  | sect (level : Int) (attrs : List (String × AV)) (title : List El) (els : List El)
  | preamble (els : List El) (toc : Option (List Toc))
  | toc (sections : Option (List Toc))
  | attrDecl (name : String) (value : AV)
  | attrReset (name : String)
  | frontMatter (attrs : List (String × AV))
  | blankLine
  | docHeader (attrs : List (String × AV)) (title : Option (List El)) (els : List El)
  | other

/-- The elements of lists: `kind` is the type of the element (`OrderedListElement`, …); `term` of labeled lists, `style` of ordered
lists, `checkStyle` of unordered lists, `ref` of callout lists. -/
inductive Item where
  | item (kind : ListKind) (els : List El) (term : List El) (style : Text) (checkStyle : Text) (ref : Int)
end

instance : Inhabited AV := ⟨.nil⟩
instance : Inhabited El := ⟨.other⟩

/-- attributes.go:185 `Attributes`. -/
abbrev Attrs := AMap AV

def Loc.id : Loc → Nat | .loc i _ _ => i
def Loc.scheme : Loc → Text | .loc _ s _ => s
def Loc.path : Loc → AV | .loc _ _ p => p

def Item.kind : Item → ListKind | .item k _ _ _ _ _ => k
def Item.els : Item → List El | .item _ e _ _ _ _ => e
def Item.term : Item → List El | .item _ _ t _ _ _ => t
def Item.style : Item → Text | .item _ _ _ s _ _ => s
def Item.checkStyle : Item → Text | .item _ _ _ _ c _ => c
def Item.ref : Item → Int | .item _ _ _ _ _ r => r

/-- types.go:2129-2136 `Footnote`. -/
structure Footnote where
  id : Int
  ref : Text
  els : List El

/-- types.go:92-98 `Document`.  `toc` is nil, or a table of contents whose sections may be nil. -/
structure Doc where
  elements : List El
  refs : List (Text × AV)
  footnotes : List Footnote
  toc : Option (Option (List Toc))

/-! ### Attributes -/

/-- attributes.go:474-477 `Has`. -/
def has (a : Attrs) (k : String) : Bool := (a.get k).isSome

def AV.isStr (t : Text) : AV → Bool
  | .str u => u == t
  | _ => false

/-- attributes.go:480-495 `HasOption`. -/
def hasOption (a : Attrs) (k : String) : Bool :=
  (match a.get "options" with
   | some (.options l) => l.any (AV.isStr k.toList)
   | _ => false) || has a k

/-- attributes.go:499-505 `GetAsString`. -/
def getStr (a : Attrs) (k : String) : Option Text :=
  match a.get k with
  | some (.str t) => some t
  | _ => none

/-- attributes.go:535-546 `GetAsStringWithDefault`; `sprint` is `fmt.Sprintf("%v", …)`. -/
def getStrD (sprint : AV → Text) (a : Attrs) (k : String) (d : Text) : Text :=
  match a.get k with
  | some .nil => []
  | some (.str t) => t
  | some v => sprint v
  | none => d

/-- Go `strconv.ParseBool`. -/
def parseBool (t : Text) : Option Bool :=
  if t ∈ ["1".toList, "t".toList, "T".toList, "true".toList, "TRUE".toList, "True".toList] then some true
  else if t ∈ ["0".toList, "f".toList, "F".toList, "false".toList, "FALSE".toList, "False".toList] then some false
  else none

/-- attributes.go:521-531 `GetAsBoolWithDefault`. -/
def getBoolD (a : Attrs) (k : String) (d : Bool) : Bool :=
  match a.get k with
  | some (.flag b) => b
  | some (.str t) => (parseBool t).getD d
  | _ => d

/-! ### Strings -/

/-- `unicode.IsSpace`. -/
def goSpace (c : Char) : Bool :=
  [0x9, 0xA, 0xB, 0xC, 0xD, 0x20, 0x85, 0xA0, 0x1680, 0x2028, 0x2029, 0x202F, 0x205F, 0x3000].contains c.toNat ||
    (decide (0x2000 ≤ c.toNat) && decide (c.toNat ≤ 0x200A))

/-- `strings.TrimRight(t, c)`. -/
def trimRight (p : Char → Bool) (t : Text) : Text := (t.reverse.dropWhile p).reverse

/-- `strings.Trim(t, c)`, `strings.TrimSpace(t)`. -/
def trim (p : Char → Bool) (t : Text) : Text := trimRight p (t.dropWhile p)

/-- `strings.Split(t, "\n")`. -/
def splitNL : Text → List Text
  | [] => [[]]
  | c :: t =>
    if c = '\n' then [] :: splitNL t
    else match splitNL t with
      | [] => [[c]]
      | l :: ls => (c :: l) :: ls

/-- `strings.Join(l, sep)`. -/
def joinWith (sep : Text) : List Text → Text
  | [] => []
  | [t] => t
  | t :: u :: l => t ++ sep ++ joinWith sep (u :: l)

/-- paragraph.go:104-115 `trimSpaces`. -/
def trimSpaces (t : Text) : Text := joinWith "\n".toList ((splitNL t).map (trim goSpace))

/-- The number of spaces at the beginning of a line. -/
def heading (t : Text) : Nat := (t.takeWhile (· == ' ')).length

/-- delimited_block_example.go:127-151 `adjustHeadingSpaces`. -/
def adjustHeadingSpaces (t : Text) : Text :=
  match splitNL t with
  | [l] => l.dropWhile (· == ' ')
  | ls =>
    let n := (ls.map heading).foldl Nat.min ((ls.map heading).headD 0)
    joinWith "\n".toList (ls.map (fun l => l.drop n))

/-- `HTMLEscapeString` of text/template and `HTMLEscape` of html/template. -/
def htmlEscape (t : Text) : Text :=
  t.flatMap (fun c =>
    if c = '\x00' then ['\uFFFD']
    else if c = '"' then "&#34;".toList
    else if c = '\'' then "&#39;".toList
    else if c = '&' then "&amp;".toList
    else if c = '<' then "&lt;".toList
    else if c = '>' then "&gt;".toList
    else [c])

/-- `filepath.Ext`: from the last `.` after the last `/`. -/
def fileExt (t : Text) : Text :=
  let r := t.reverse.takeWhile (fun c => !(c == '.' || c == '/'))
  if (t.reverse.dropWhile (fun c => !(c == '.' || c == '/'))).head? = some '.' then '.' :: r.reverse else []

/-! ### The header of a document -/

/-- types.go:111-126 `Header`: the header may only be preceded by blank lines and by the front matter. -/
def header : List El → Option (Attrs × Option (List El) × List El)
  | .docHeader a t e :: _ => some (a, t, e)
  | .blankLine :: l => header l
  | .frontMatter _ :: l => header l
  | _ => none

/-- types.go:129-144 `BodyElements`: everything but the first header. -/
def bodyElements : List El → List El
  | [] => []
  | .docHeader _ _ _ :: l => l
  | e :: l => e :: bodyElements l

mutual
/-- types.go:166-198 `traverseElements`: the numbers of the sections, by identifier; an element. -/
def numberEl : El → (enabled : Bool) → (counter : Nat) → (pre : Text) → Bool × Nat × List (Text × Text)
  | .attrDecl name _, en, n, _ => (en || name == "sectnums" || name == "numbered", n, [])
  | .attrReset name, en, n, _ => (en && !(name == "sectnums" || name == "numbered"), n, [])
  | .sect _ attrs _ els, en, n, pre =>
    if en then
      let number := pre ++ itoa (n + 1)
      let r := numberEls els en 0 (number ++ ".".toList)
      (r.1, n + 1, r.2 ++ [((getStr attrs "id").getD [], number)])
    else
      let r := numberEls els en 0 ".".toList
      (r.1, n, r.2)
  | _, en, n, _ => (en, n, [])
/-- types.go:166-198 `traverseElements`: the loop.  The latest entries come first. -/
def numberEls : List El → (enabled : Bool) → (counter : Nat) → (pre : Text) → Bool × List (Text × Text)
  | [], en, _, _ => (en, [])
  | e :: l, en, n, pre =>
    let r := numberEl e en n pre
    let s := numberEls l r.1 r.2.1 pre
    (s.1, s.2 ++ r.2.2)
end

/-- types.go:153-164 `SectionNumbers`. -/
def sectionNumbers (elements : List El) : List (Text × Text) :=
  (numberEls elements (match header elements with
    | some (_, _, els) => (numberEls els false 0 []).1
    | none => false) 0 []).2

end Verif.Rend
