import Verif.Model.Values
import Verif.Model.Elements

/-!
The code of actions and predicates of the grammar (pkg/parser/parser.peg), by the numbers they have in `Verif.Grammar`: those that inline text
without markup, paragraphs and blank lines meet. `none`: an action that is not modelled here, or one applied to values it never gets.
-/
namespace Verif
namespace Actions
open Walk (Any)
open Subs (Sub)

/-- The symbols as values: the label of a `*Symbol` (types.go:3675-3684) is ten plus the place of its name in this list; the one named ` -- ` is `.dash`. -/
def symbolNames : List String := ["(C)", "(R)", "(TM)", "...", "'", "'`", "`'", "\"`", "`\"", "->", "<-", "=>", "<=", "--"]

/-- types.go:3680-3684 `NewSymbol`; `none`: a name that is not in the grammar. -/
def newSymbol (name : String) : Option Any :=
  if name = " -- " then some .dash else (symbolNames.findIdx? (· == name)).map (fun i => .leaf (10 + i))

/-- types.go:1859-1870 `NewInlineElements`, for elements without line breaks (before which a space is removed): `none` if there is an
element of a kind that may be one (`.leaf`, but not a symbol). The argument is one slice. -/
def newInlineElements (es : List Any) : Option Any :=
  if (Walk.merge [.slice es]).any (fun e => match e with | .leaf n => decide (n < 10) | _ => false) then none else some (.slice (Walk.merge [.slice es]))

/-- The label of a `*QuotedText` (types.go:2728-2757) of a kind: bold, italic, monospace, marked, subscript and superscript. The kinds with one and with two marks
are not told apart, as they are treated alike everywhere (quoted_text.go:29-44). -/
def quotedLabel (k : Nat) : Nat := 20 + k

/-- types.go:2761-2770 `NewQuotedText`, with one argument (the slice of the elements, or an element). -/
def newQuotedText (k : Nat) (v : Any) : Any := .group (quotedLabel k) [] (Walk.merge [.slice [v]])

/-- `strings.TrimRight(content, " \t")`. -/
def trimRight (t : Text) : Text := (t.reverse.dropWhile (fun c => c == ' ' || c == '\t')).reverse

/-- types.go:1738-1743 and 2306-2311: `\n` is appended to the raw lines, except to the last one. -/
def appendNewlines : List Any → List Any
  | [] => []
  | [e] => [e]
  | .raw l :: es => .raw (l ++ ['\n']) :: appendNewlines es
  | e :: es => e :: appendNewlines es

/-- types.go:1770-1776 `Paragraph.AddElement`: `\n` is appended to the last line if it is raw. -/
def addToParagraph (es : List Any) (e : Any) : List Any :=
  match es.getLast? with
  | some (.raw l) => es.dropLast ++ [.raw (l ++ ['\n']), e]
  | _ => es ++ [e]

/-- types.go:771-790 `addToListElement`, for a raw line: it is added to the last element if this is a paragraph, otherwise it is a paragraph of its own. -/
def addToItem (es : List Any) (l : Text) : List Any :=
  match es.getLast? with
  | some (.paragraph a ls) => es.dropLast ++ [.paragraph a (addToParagraph ls (.raw l))]
  | _ => es ++ [.paragraph [] [.raw l]]

/-- types.go:893-937 `NewListElements`, for elements (`.group`) and raw lines; `acc`: the elements so far. `none`: with attributes, comments or continuations, which are not
modelled here. -/
def newListElements (acc : List Any) : List Any → Option (List Any)
  | [] => some acc
  | .raw l :: es => match acc.getLast? with
    | none => newListElements acc es
    | some (.group n a xs) => newListElements (acc.dropLast ++ [.group n a (addToItem xs l)]) es
    | some _ => none
  | .group n a xs :: es => newListElements (acc ++ [.group n a xs]) es
  | _ => none

/-- The elements of lists as values: the label of a `*ListElements` (types.go:889); of an `*OrderedListElement` (types.go:1175) whose style is Arabic, LowerAlpha, LowerRoman,
UpperAlpha or UpperRoman (0 to 4); and of an `*UnorderedListElement` (types.go:1308) whose bullet is a dash (0) or one to five asterisks, without check box. -/
def listLabel : Nat := 0
def orderedLabel (style : Nat) : Nat := 1 + style
def unorderedLabel (bullet : Nat) : Nat := 6 + bullet

/-- types.go:1511-1528 `NewUnorderedListElementBulletStyle`; `none`: an error. -/
def bulletStyle (t : Text) : Option Nat :=
  if t = ['-'] then some 0
  else if t = ['*'] then some 1
  else if t = ['*', '*'] then some 2
  else if t = ['*', '*', '*'] then some 3
  else if t = ['*', '*', '*', '*'] then some 4
  else if t = ['*', '*', '*', '*', '*'] then some 5
  else none

/-- `strings.TrimSpace`. -/
def trimSpace (t : Text) : Text := Rend.trim Rend.goSpace t

/-- `strings.ReplaceAll(t, "_", " ")`. -/
def spaced (t : Text) : Text := t.map (fun c => if c = '_' then ' ' else c)

/-- types.go:509-526 `NewDocumentAuthorFullName`; the second and the third part may be missing (`.nil`). -/
def newFullName (part1 : Text) : Any → Any → Any
  | .text m, .text l => .fullName (spaced part1) (spaced m) (trimSpace (spaced l))
  | _, .text l => .fullName (spaced part1) [] (trimSpace (spaced l))
  | .text l, _ => .fullName (spaced part1) [] (spaced l)
  | _, _ => .fullName (spaced part1) [] []

/-- types.go:492-501 `NewDocumentAuthor`, as a list of one author; `none`: an author without a name, who cannot be told from one with an empty name in this model. -/
def newAuthor : Any → Any → Option Any
  | .fullName f m l, .text e => some (.authors [(f, m, l, trimSpace e)])
  | .fullName f m l, _ => some (.authors [(f, m, l, [])])
  | _, _ => none

/-- types.go:432-444 `NewDocumentAuthors`; `none`: an error. -/
def newAuthors : List Any → Option (List (Text × Text × Text × Text))
  | [] => some []
  | .authors l :: as => (newAuthors as).map (l ++ ·)
  | _ => none

/-- `strings.TrimPrefix`, for a prefix of one character. -/
def trimPrefix (p : Char) : Text → Text
  | c :: t => if c = p then t else c :: t
  | [] => []

/-- The text of a value, empty if it is not a string. -/
def textOf : Any → Text
  | .text t => t
  | _ => []

/-- types.go:561-597 `NewDocumentRevision`. -/
def newRevision (number date remark : Any) : Any :=
  .revision (trimSpace (trimPrefix 'V' (trimPrefix 'v' (textOf number)))) (trimSpace (textOf date)) (trimSpace (trimPrefix ':' (textOf remark)))

/-- types.go:289-316 `NewDocumentHeader`; `ar`: the authors and the revision (types.go:409-424), as a slice of two values, or `.nil`. `none`: without a title. -/
def newHeader (title : List Any) (ar : Any) (extra : List Any) : Option Any :=
  if title = [] then none else
  some (.header [] (Walk.trimTitle title) ((match ar with
    | .slice [.authors (a :: l), .revision n d r] => [.declare "authors" (.authors (a :: l)), .declare "revision" (.revision n d r)]
    | .slice [.authors (a :: l), _] => [.declare "authors" (.authors (a :: l))]
    | .slice [_, .revision n d r] => [.declare "revision" (.revision n d r)]
    | _ => []) ++ extra))

/-- types_utils.go:98-131 `Reduce(elements, strings.TrimSpace)`. -/
def reduceTrim : Any → Any
  | .slice es => match Walk.merge es with
    | [] => .nil
    | [.str t] => .text (trimSpace t)
    | es => .slice es
  | .str t => if t = [] then .nil else .text t
  | .text t => if trimSpace t = [] then .nil else .text (trimSpace t)
  | v => v

/-- types_utils.go:98-131 `Reduce(elements)`. -/
def reduce : Any → Any
  | .slice es => match Walk.merge es with
    | [] => .nil
    | [.str t] => .text t
    | es => .slice es
  | .str t => if t = [] then .nil else .text t
  | .text t => if t = [] then .nil else .text t
  | v => v

/-- The label of an `*InternalCrossReference` (types.go:1877-1880) as a value; its parts are its `ID` and its `Label`. -/
def crossLabel : Nat := 1

/-- types.go:1883-1889 `NewInternalCrossReference`. -/
def newCross (id label : Any) : Any := .closed crossLabel [reduce id, reduce label]

/-- types/predefined_attributes.go:5-35 `predefinedAttributes`. -/
def predefined : List String := ["sp", "blank", "empty", "nbsp", "zwsp", "wj", "apos", "quot", "lsquo", "rsquo", "ldquo", "rdquo", "deg", "plus", "brvbar", "vbar",
  "amp", "lt", "gt", "startsb", "endsb", "caret", "asterisk", "tilde", "backslash", "backtick", "two-colons", "two-semicolons", "cpp"]

/-- types.go:672-683 `NewAttributeReference`; `none`: a predefined attribute, which is not modelled here. -/
def newReference (name : Text) : Option Any :=
  if String.ofList name ∈ predefined then none else some (.ref (String.ofList name))

/-- types.go:700-710 `NewCounterSubstitution`: the value a counter is set to, from a letter (a `string`) or a number; `none`: another value. -/
def startValue : Any → Option (Option AttrRefs.CVal)
  | .nil => some none
  | .text [c] => some (some (.rune c.toNat))
  | .plain n => some (some (.int n))
  | _ => none

/-- The actions; the values are those of the parts of the expression. -/
def code : Nat → List Any → Text → Option Any
  /- parser.peg:2364-2367 and 2390-2393: `element`, which is tracked -/
  | 370, [.slice [_, v]], _ => some v
  | 373, [.slice [_, v]], _ => some v
  /- parser.peg:2368-2370 and 2374-2376: `NewInlineElements(elements)` -/
  | 371, [.slice [.slice es, _]], _ => newInlineElements es
  | 372, [.slice [.slice es, _]], _ => newInlineElements es
  /- parser.peg:2453-2457: special characters -/
  | 382, _, t => some (.special t)
  | 383, [.slice [_, v]], _ => some v
  /- parser.peg:2436-2445, 2489-2491 and 2514-2582: the symbols -/
  | 380, [.slice [_, v]], _ => some v
  | 388, _, _ => newSymbol "'"
  | 390, _, _ => newSymbol "`\""
  | 391, _, _ => newSymbol "\"`"
  | 392, _, _ => newSymbol "`'"
  | 393, _, _ => newSymbol "'`"
  | 394, _, _ => newSymbol "(C)"
  | 395, _, _ => newSymbol "(TM)"
  | 396, _, _ => newSymbol "(R)"
  | 397, _, _ => newSymbol "..."
  | 399, _, _ => newSymbol " -- "
  | 401, _, _ => newSymbol "--"
  | 402, _, _ => newSymbol "->"
  | 403, _, _ => newSymbol "<-"
  | 404, _, _ => newSymbol "=>"
  | 405, _, _ => newSymbol "<="
  /- parser.peg:1813-1817 and types.go:2807-2814 `WithAttributes`, without attributes -/
  | 307, [.slice [.nil, v]], _ => some v
  /- parser.peg:1876-1935: bold text -/
  | 311, [.slice [_, v, _]], _ => some (newQuotedText 0 v)
  | 312, [.slice [_, _, v]], _ => some v
  | 315, [.slice [_, v, _]], _ => some (newQuotedText 0 v)
  | 317, [.slice [_, v, _]], _ => some v
  | 318, [.slice [_, _, v]], _ => some v
  /- parser.peg:1965-2025: italic text -/
  | 322, [.slice [_, v, _]], _ => some (newQuotedText 1 v)
  | 323, [.slice [_, _, v]], _ => some v
  | 326, [.slice [_, v, _]], _ => some (newQuotedText 1 v)
  | 328, [.slice [_, v, _]], _ => some v
  | 329, [.slice [_, _, v]], _ => some v
  /- parser.peg:2055-2117: monospace text -/
  | 333, [.slice [_, v, _]], _ => some (newQuotedText 2 v)
  | 334, [.slice [_, _, v]], _ => some v
  | 337, [.slice [_, v, _]], _ => some (newQuotedText 2 v)
  | 339, [.slice [_, v, _]], _ => some v
  | 340, [.slice [_, _, v]], _ => some v
  /- parser.peg:2147-2206: marked text -/
  | 344, [.slice [_, v, _]], _ => some (newQuotedText 3 v)
  | 345, [.slice [_, _, v]], _ => some v
  | 348, [.slice [_, v, _]], _ => some (newQuotedText 3 v)
  | 350, [.slice [_, v, _]], _ => some v
  | 351, [.slice [_, _, v]], _ => some v
  /- parser.peg:2226-2239 and 2253-2266: subscript and superscript -/
  | 355, [.slice [_, v, _]], _ => some (newQuotedText 4 v)
  | 356, _, t => some (.text t)
  | 358, [.slice [_, v, _]], _ => some (newQuotedText 5 v)
  | 359, _, t => some (.text t)
  /- parser.peg:2480-2483: an escaped apostrophe -/
  | 385, _, _ => some (.str ['\''])
  /- parser.peg:1198-1200: the place of an element -/
  | 196, _, t => some (.text t)
  | 197, [.slice [_, .text r, _]], _ => some (.holder r)
  /- parser.peg:686-704 and 2837-2839: references to other places of the document -/
  | 112, [.slice [_, id, _, _, label, _]], _ => some (newCross id label)
  | 113, [.slice [_, id, _]], _ => some (newCross id .nil)
  | 115, _, t => some (.str t)
  | 454, _, t => some (.text t)
  /- parser.peg:2414-2416: a macro -/
  | 375, [.slice [_, v]], _ => some v
  /- parser.peg:2763-2766: text -/
  | 440, _, t => some (.str t)
  /- parser.peg:2785-2788, 2791-2796, 2852-2859 and 2861-2867: punctuation, any character, spaces and newlines -/
  | 443, _, t => some (.text t)
  | 444, _, t => some (.text t)
  | 457, _, t => some (.text t)
  | 458, _, t => some (.text t)
  | 459, _, t => some (.text t)
  | 460, _, t => some (.text t)
  /- parser.peg:258-266: the element of a fragment, without block attributes -/
  | 48, [.slice [_, .nil, _, v, _]], _ => some v
  /- parser.peg:302-313 and types.go:631-640 `NewAttributeDeclaration` -/
  | 52, [.slice [_, v]], _ => some v
  | 53, [.slice [_, .text name, _, v, _]], _ => some (.declare (String.ofList name) (reduceTrim v))
  /- parser.peg:318-320: the name of an attribute -/
  | 54, _, t => some (.text t)
  /- parser.peg:322-341: the value of a declaration, which may go on on further lines -/
  | 55, [.slice [_, _, _, v]], _ => some v
  | 56, [.slice [.slice es, .slice others]], _ => some (reduceTrim (.slice (es ++ others)))
  | 57, [v], _ => some v
  /- parser.peg:343-358 -/
  | 58, _, t => some (.str t)
  | 59, [.slice [_, v]], _ => some v
  /- parser.peg:360-364 and types.go:653-660 `NewAttributeReset` -/
  | 60, [.slice [_, .text name, _, _, _]], _ => some (.reset (String.ofList name))
  | 61, [.slice [_, .text name, _, _, _]], _ => some (.reset (String.ofList name))
  /- parser.peg:634-655: references, with `strings.TrimPrefix(string(c.text), "\\")` for escaped ones -/
  | 103, [.slice [_, v]], _ => some v
  | 104, _, t => some (.str (trimPrefix '\\' t))
  | 105, [.slice [_, .text name, _]], _ => newReference name
  /- parser.peg:658-672: counters; the start value of a hidden one is dropped -/
  | 106, [.slice [_, .text name, start, _]], _ => (startValue start).map (fun v => .counter (String.ofList name) v false)
  | 107, [.slice [_, .text name, _, _]], _ => some (.counter (String.ofList name) none true)
  | 108, _, t => some (.text t)
  | 109, _, t => (atoi t).map (fun n => .plain n.toNat)
  | 110, [.slice [_, v]], _ => some v
  /- parser.peg:677-679: a blank line -/
  | 111, _, _ => some (.leaf 0)
  /- parser.peg:1758-1766 and types.go:1736-1753 `NewParagraph`, without style -/
  | 299, [.slice [_, _, _, _, _, v]], _ => some v
  | 300, [.slice [_, .nil, l, _, .slice ls]], _ => some (.paragraph [] (appendNewlines (l :: ls)))
  /- parser.peg:1783-1790 and types.go:3282-3286 `NewRawLine` -/
  | 304, [.slice [.text l, _, _]], _ => some (.raw (trimRight l))
  /- parser.peg:2798-2804: a line -/
  | 445, _, t => some (.text t)
  | 446, _, t => some (.text t)
  /- parser.peg:810-814: a line of a delimited block -/
  | 138, [.slice [_, .text l, _]], _ => some (.raw (trimRight l))
  /- parser.peg:858-862, 886-890, 914-918, 942-946, 1007-1011, 1035-1039, 1063-1067 and 1091-1095: the lines of delimited blocks -/
  | 144, [.slice [_, v]], _ => some v
  | 148, [.slice [_, v]], _ => some v
  | 152, [.slice [_, v]], _ => some v
  | 156, [.slice [_, v]], _ => some v
  | 163, [.slice [_, v]], _ => some v
  | 167, [.slice [_, v]], _ => some v
  | 171, [.slice [_, v]], _ => some v
  | 175, [.slice [_, v]], _ => some v
  /- parser.peg:839-847, 867-875, 895-903, 923-931, 996-1001, 1016-1024, 1044-1052 and 1072-1080: delimited blocks, with types.go:2305-2316
  `NewDelimitedBlock` -/
  | 142, [.slice [_, _, .slice ls, _]], _ => some (.block .example_ [] (appendNewlines ls))
  | 146, [.slice [_, _, .slice ls, _]], _ => some (.block .fenced [] (appendNewlines ls))
  | 150, [.slice [_, _, .slice ls, _]], _ => some (.block .listing [] (appendNewlines ls))
  | 154, [.slice [_, _, .slice ls, _]], _ => some (.block .literal [] (appendNewlines ls))
  | 162, [.slice [_, .slice ls, _]], _ => some (.block .open_ [] (appendNewlines ls))
  | 165, [.slice [_, _, .slice ls, _]], _ => some (.block .pass [] (appendNewlines ls))
  | 169, [.slice [_, _, .slice ls, _]], _ => some (.block .quote [] (appendNewlines ls))
  | 173, [.slice [_, _, .slice ls, _]], _ => some (.block .sidebar [] (appendNewlines ls))
  /- parser.peg:276-288: the elements of a delimited block -/
  | 51, [.slice [_, v, _]], _ => some v
  /- parser.peg:2285-2288: the level of a section -/
  | 362, _, t => some (.plain (t.length - 1))
  /- parser.peg:2293-2295 and types.go:2448-2455 `NewSection`, for a title without an inline id at its end -/
  | 364, [.slice [_, .plain n, _, _, .slice title, _]], _ => match title.getLast? with
    | none => none
    | some (.anchor _) => none
    | some _ => some (.section n [] (Walk.trimTitle title))
  /- parser.peg:2303-2305 -/
  | 366, [.slice [_, .slice es]], _ => newInlineElements es
  /- parser.peg:2325-2328: an element of a title, which is tracked -/
  | 367, [.slice [_, v]], _ => some v
  /- parser.peg:1470-1475: the elements of a list, with the lines that are added to them -/
  | 247, [.slice [first, .slice extra]], _ => (newListElements [] (first :: extra)).map (.group listLabel [])
  /- parser.peg:1482-1484 `types.Flatten`, for elements that are not lists of elements (types_utils.go:61-74) -/
  | 248, [.slice es], _ => if es.all (fun e => match e with | .slice _ => false | _ => true) then some (.slice es) else none
  /- parser.peg:1489-1492 and 1500-1502 -/
  | 249, [.slice [_, v]], _ => some v
  | 251, [.slice [_, v]], _ => some v
  /- parser.peg:1504-1523 with types.go:3282-3286 `NewRawLine` and types.go:1736-1753 `NewParagraph`: the lines of an element of a list -/
  | 252, [.slice [_, _, _, _, _, _, _, .text l, _]], _ => some (.raw (trimRight l))
  | 253, _, t => some (.raw (trimRight t))
  | 254, [.slice [.slice ls, _]], _ => some (.paragraph [] (appendNewlines ls))
  /- parser.peg:1569-1574 and types.go:1184-1193 `NewOrderedListElement` -/
  | 258, [.slice [.plain k, content]], _ => some (.group (orderedLabel k) [] [content])
  /- parser.peg:1578-1614: the styles -/
  | 259, _, t => some (.plain t.length)
  | 261, [.slice [.plain n, _]], _ => some (.plain (if n = 1 then 0 else if n = 2 then 1 else if n = 3 then 2 else if n = 4 then 3 else 4))
  | 262, _, _ => some (.plain 0)
  | 263, _, _ => some (.plain 1)
  | 264, _, _ => some (.plain 3)
  | 265, _, _ => some (.plain 2)
  | 266, _, _ => some (.plain 4)
  | 267, [.slice [_, v, _]], _ => some v
  /- parser.peg:1619-1639 and types.go:1315-1336 `NewUnorderedListElement`, without check box -/
  | 268, [.slice [.plain b, .nil, content]], _ => some (.group (unorderedLabel b) [] [content])
  | 269, _, t => some (.text t)
  | 271, [.slice [_, .text t, _, _]], _ => (bulletStyle t).map .plain
  /- parser.peg:1100-1110: `NewDocumentHeader(title, authorsAndRevision, extraElements)` -/
  | 177, [.slice [_, _, .slice title, _, ar, .slice extra]], _ => newHeader title ar extra
  /- parser.peg:1112-1115 `title` -/
  | 178, [.slice [_, _, v, _]], _ => some v
  /- parser.peg:1117-1123 and types.go:415-424 `NewDocumentAuthorsAndRevision` -/
  | 179, [.slice [_, .authors l, _, r]], _ => some (.slice [.authors l, r])
  /- parser.peg:1125-1127 `NewDocumentAuthors(authors…)` -/
  | 180, [.slice [_, .slice as, _]], _ => (newAuthors as).map .authors
  /- parser.peg:1129-1137 `NewDocumentAuthor(fullName, email)` -/
  | 182, [.slice [name, email, _, _, _, _]], _ => newAuthor name email
  /- parser.peg:1140-1153 -/
  | 183, _, t => some (.text t)
  | 184, _, t => some (.text t)
  | 185, _, t => some (.text t)
  | 186, [.slice [.text p1, _, p2, _, p3, _]], _ => some (newFullName p1 p2 p3)
  /- parser.peg:1156-1164 -/
  | 187, _, t => some (.text t)
  | 188, [.slice [_, _, v, _]], _ => some v
  /- parser.peg:1168-1175 `NewDocumentRevision(revnumber, revdate, revremark)` -/
  | 189, [.slice [n, _, d, _, r]], _ => some (newRevision n d r)
  | 190, [.slice [d, _, r]], _ => some (newRevision .nil d r)
  | 191, [.slice [_, _, v, _]], _ => some v
  /- parser.peg:1178-1191 -/
  | 192, _, t => some (.text t)
  | 193, _, t => some (.text t)
  | 194, _, t => some (.text t)
  | 195, _, t => some (.text t)
  | _, _, _ => none

/-- The predicates `c.isSubstitutionEnabled(…)` (parser_ext.go:278-292). -/
def guards : List (Nat × Sub) :=
  [(102, .attributes), (198, .postReplacements), (284, .callouts), (374, .macros), (376, .passthroughs), (378, .quotes),
   (379, .replacements), (381, .specialchars), (386, .replacements)]

/-- The actions that call `c.trackElement(element)` (parser_ext.go:123-128). -/
def tracking : List Nat := [225, 312, 318, 323, 329, 334, 340, 345, 351, 367, 370, 373]

/-- `rune(c.text[len(c.text)-1])` (parser_ext.go:127): the last byte of the text, taken as a character. -/
def lastByte (c : Char) : Char := if c.toNat < 128 then c else Char.ofNat (128 + c.toNat % 64)

/-- parser_ext.go:130-138 `isPrecededBySpace`, for a byte: `unicode.IsSpace(r) || unicode.IsControl(r)`. -/
def spaceByte (c : Char) : Bool := decide (c.toNat ≤ 32) || (decide (127 ≤ c.toNat) && decide (c.toNat ≤ 160))

/-- parser_ext.go:164-181 `isSingleQuotedTextAllowed`. -/
def quoteAllowed (letter number : Char → Bool) (c : Char) : Bool :=
  !letter c && !number c && c != '!' && c != ',' && c != ';' && c != '}'

/-- `f` is the character that is tracked (in `c.globalStore`, which is not restored when the parser goes back), and the predicates on it and on the text of quoted
elements (parser_ext.go:123-213) are as in the code. -/
structure Tracks {σ : Type} (S : Peg.Sem σ) (f : σ → Option Char) : Prop where
  set : ∀ id s t u, id ∈ tracking → f (S.act id s t u) = (Peg.span t u).getLast?.map lastByte
  act : ∀ id s t u, id ∉ tracking → f (S.act id s t u) = f s
  pred : ∀ id s st t, f (S.pred id s st t).2 = f s
  state : ∀ id s st t, f (S.state id s st t) = f s
  restore : ∀ a b, f (S.restore a b) = f b
  /-- `isSingleQuotedTextAllowed` -/
  opens : ∀ id s st t, id ∈ [313, 324, 335, 346] → (S.pred id s st t).1 = ((f s).map (quoteAllowed S.letter S.number)).getD true
  /-- `!isPrecededBySpace` -/
  closes : ∀ id s st t, id ∈ [314, 325, 336, 347] → (S.pred id s st t).1 = !((f s).map spaceByte).getD false
  /-- `isPrecededBySpace` -/
  spaced : ∀ s st t, (S.pred 398 s st t).1 = ((f s).map spaceByte).getD false
  /-- `isPrecededByAlphanum` -/
  word : ∀ id s st t, id ∈ [387, 400] → (S.pred id s st t).1 = ((f s).map (fun c => S.letter c || S.number c)).getD false
  /-- `validateSingleQuoteElements`: the last element does not end with a space -/
  valid : ∀ id s st t, id ∈ [316, 327, 338, 349] → (Peg.span st t).getLast? ≠ some ' ' → (S.pred id s st t).1 = true

/-- The actions of the grammar have the values of `code`. -/
def Obeys {σ : Type} (A : Peg.Code σ) : Prop := ∀ id s v t x, code id v t = some x → A id s v t = x

/-- The substitutions `E` are enabled. (They are a parameter of the parser; `c.state` could override them, but only the titles of sections set
it, parser.peg:2298-2302.) -/
def Enabled {σ : Type} (S : Peg.Sem σ) (E : List Sub) : Prop :=
  ∀ g ∈ guards, ∀ s st t, (S.pred g.1 s st t).1 = decide (g.2 ∈ E)

end Actions
end Verif
