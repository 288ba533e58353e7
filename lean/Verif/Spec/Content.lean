import Verif.Model.Render
/-!
Specification of the text that a document says (C52), and of what it means that the output says it.

The text of an element is a list of pieces: words (without white space) and symbols.  The output says them if they occur in it, in
order, without overlapping; in the output a character may be replaced by an entity.
-/
namespace Verif.Rend
open Verif (Text)

/-- The words of a text: the maximal sequences of characters which are not white space. -/
def words : Text → List Text
  | [] => []
  | c :: t =>
    if goSpace c then words t
    else match t with
      | [] => [[c]]
      | d :: _ =>
        if goSpace d then [c] :: words t
        else match words t with
          | w :: ws => (c :: w) :: ws
          | [] => [[c]]

/-- A piece of text: a word, or a symbol such as `(C)`. -/
inductive Piece where
  | word (w : Text)
  | symbol (name : Text)
deriving DecidableEq, Repr

/-- How a character may be written: as such, by the number of the character, or by a named entity. -/
def shownAs (c : Char) (x : Text) : Prop :=
  x = [c] ∨ x = "&#".toList ++ itoa c.toNat ++ ";".toList ∨ (c = '&' ∧ x = "&amp;".toList) ∨ (c = '<' ∧ x = "&lt;".toList) ∨
    (c = '>' ∧ x = "&gt;".toList) ∨ (c = '\x00' ∧ x = ['\uFFFD'])

/-- How a word may be written: each of its characters is. -/
inductive Spelled : Text → Text → Prop
  | nil : Spelled [] []
  | cons {c x w v} : shownAs c x → Spelled w v → Spelled (c :: w) (x ++ v)

/-- How a piece may be written: without white space. -/
def Shows : Piece → Text → Prop
  | .word w, v => w ≠ [] ∧ Spelled w v ∧ ∀ c ∈ v, goSpace c = false
  | .symbol n, v => symbols.lookup n = some v ∧ ∀ c ∈ v, goSpace c = false

/-- A text contains the pieces, in order, without overlapping. -/
inductive InOrderBy (S : Piece → Text → Prop) : List Piece → Text → Prop
  | nil {t} : InOrderBy S [] t
  | cons {p ps before v after} : S p v → InOrderBy S ps after → InOrderBy S (p :: ps) (before ++ v ++ after)

abbrev InOrder : List Piece → Text → Prop := InOrderBy Shows

/-- The pieces of a string. -/
def texts (t : Text) : List Piece := (words t).map .word

def optTexts : Option Text → List Piece
  | some t => texts t
  | none => []

/-- The strings of an inline passthrough `+…+`. -/
def strings : List El → List Piece
  | [] => []
  | .str t :: l => texts t ++ strings l
  | _ :: l => strings l

/-- The author and the title of a quote.  (The title is not written if the author is given, but empty.) -/
def attributionPieces (a : Attrs) : List Piece :=
  match getStr a "quoteAuthor" with
  | some [] => []
  | some t => texts t ++ optTexts (getStr a "quoteTitle")
  | none => optTexts (getStr a "quoteTitle")

/-- The text of a paragraph which is not in a list, given its title, its content, and its content as plain text. -/
def paragraphPieces (src : Bool) (a : Attrs) (title content embedded plain : List Piece) : List Piece :=
  match getStr a "style" with
  | none => title ++ content
  | some s =>
    if s = "source".toList then title ++ (if src = true ∨ has a "language" = false then embedded else [])
    else if s = "verse".toList then title ++ plain ++ attributionPieces a
    else if s = "quote".toList then title ++ content ++ attributionPieces a
    else if s = "pass".toList ∨ s = "manpage".toList then content
    else if s ∈ ["TIP".toList, "NOTE".toList, "IMPORTANT".toList, "WARNING".toList, "CAUTION".toList] then
      (if content = [] then [] else title ++ content)
    else title ++ content

/-- The text of a block, given its title and its content; those in `within` are in the block. -/
def blockPieces (src : Bool) (k : BlockKind) (a : Attrs) (title content titleIn contentIn : List Piece) : List Piece :=
  match k with
  | .fenced => titleIn ++ contentIn
  | .listing =>
    if getStr a "style" = some "source".toList then
      title ++ (if src = true ∨ has a "language" = false then contentIn else [])
    else titleIn ++ contentIn
  | .pass => contentIn
  | .verse => titleIn ++ contentIn ++ attributionPieces a
  | .quote => title ++ content ++ attributionPieces a
  | .markdownQuote => title ++ content ++ attributionPieces a
  | .other => []
  | _ => title ++ content

mutual
/-- What an element says when it is written as plain text (in titles of pages, and in verses). -/
def plainPieces : El → List Piece
  | .str t => texts t
  | .special n => texts n
  | .symbol n => if (symbols.lookup n).isSome then [.symbol n] else []
  | .quoted _ _ l => plainPiecesAll l
  | .passthrough _ l => plainPiecesAll l
  | .link _ a => plainText a
  | .inlineImage _ a => optTexts (getStr a "alt")
  | .icon _ a => optTexts (getStr a "alt")
  | _ => []
def plainPiecesAll : List El → List Piece
  | [] => []
  | e :: l => plainPieces e ++ plainPiecesAll l
/-- The text of a link. -/
def plainText : List (String × AV) → List Piece
  | [] => []
  | p :: m => if p.1 = "text" then plainValue p.2 else plainText m
def plainValue : AV → List Piece
  | .str t => texts t
  | .els l => plainPiecesAll l
  | _ => []
end

mutual
/-- What an element says.  `src`: whether to count the content of source blocks which may be highlighted.  `emb`: whether the
element is within a list or a block, where paragraphs have no title.  Not counted: what is only given by the configuration or by
references (numbers, captions, the text of references without label), the targets of links and images, icons, user macros. -/
def pieces (src emb : Bool) : El → List Piece
  | .str t => texts t
  | .special n => texts n
  | .symbol n => [.symbol n]
  | .predefined n => texts ((predefinedAttributes.get n).getD [])
  | .quoted _ _ l => piecesAll src emb l
  | .passthrough singlePlus l => if singlePlus then strings l else piecesAll src emb l
  | .link _ a => attrPieces src emb "text" a
  | .xref _ label => (match label with | .str t => texts t | _ => [])
  | .extXref _ a => attrPieces src emb "xrefLabel" a
  | .inlineImage _ a => optTexts (getStr a "alt") ++ attrPieces src emb "title" a
  | .imageBlock _ a => optTexts (getStr a "alt") ++ attrPieces src emb "title" a
  | .button a => optTexts (getStr a "label")
  | .menu path => path.flatMap texts
  | .indexTerm l => piecesAll src emb l
  | .paragraph a l =>
    if emb then piecesAll src true l
    else paragraphPieces src a (attrPieces src false "title" a) (piecesAll src false l) (piecesAll src true l) (plainPiecesAll l)
  | .block k a l =>
    blockPieces src k a (attrPieces src emb "title" a) (piecesAll src emb l) (attrPieces src true "title" a) (piecesAll src true l)
  | .list k a items =>
    attrPieces src emb "title" a ++
      (if k = .labeled then labeledPieces src emb items else itemsPieces src emb items)
  | .table a header rows footer =>
    attrPieces src emb "title" a ++
      (if rows.isEmpty then [] else headPieces src emb header ++ rowsPieces src emb rows ++ headPieces src emb footer)
  | .sect _ _ title l => piecesAll src emb title ++ piecesAll src emb l
  | .preamble l _ => piecesAll src emb l
  | _ => []
def piecesAll (src emb : Bool) : List El → List Piece
  | [] => []
  | e :: l => pieces src emb e ++ piecesAll src emb l
/-- The value of an attribute. -/
def attrPieces (src emb : Bool) (key : String) : List (String × AV) → List Piece
  | [] => []
  | p :: m => if p.1 = key then valuePieces src emb p.2 else attrPieces src emb key m
def valuePieces (src emb : Bool) : AV → List Piece
  | .str t => texts t
  | .els l => piecesAll src emb l
  | _ => []
/-- The elements of a list item: the first is embedded. -/
def firstPieces (src emb : Bool) : List El → List Piece
  | [] => []
  | e :: l => pieces src true e ++ piecesAll src emb l
def itemsPieces (src emb : Bool) : List Item → List Piece
  | [] => []
  | .item _ els _ _ _ _ :: l => firstPieces src emb els ++ itemsPieces src emb l
def labeledPieces (src emb : Bool) : List Item → List Piece
  | [] => []
  | .item _ els term _ _ _ :: l => piecesAll src emb term ++ firstPieces src emb els ++ labeledPieces src emb l
/-- A cell, made of a paragraph, of the header or of the footer. -/
def headCellPieces (src emb : Bool) : List El → List Piece
  | .paragraph _ l :: _ => piecesAll src emb l
  | _ => []
def headCellsPieces (src emb : Bool) : List (List El) → List Piece
  | [] => []
  | c :: l => headCellPieces src emb c ++ headCellsPieces src emb l
def headPieces (src emb : Bool) : Option (List (List El)) → List Piece
  | none => []
  | some l => headCellsPieces src emb l
/-- A cell of the body: the titles of paragraphs are not written. -/
def cellPieces (src emb : Bool) : List El → List Piece
  | [] => []
  | .paragraph _ els :: l => piecesAll src emb els ++ cellPieces src emb l
  | e :: l => pieces src emb e ++ cellPieces src emb l
def rowPieces (src emb : Bool) : List (List El) → List Piece
  | [] => []
  | c :: l => cellPieces src emb c ++ rowPieces src emb l
def rowsPieces (src emb : Bool) : List (List (List El)) → List Piece
  | [] => []
  | r :: l => rowPieces src emb r ++ rowsPieces src emb l
end

/-- What the footnotes say. -/
def notesPieces (src emb : Bool) (notes : List Footnote) : List Piece := notes.flatMap fun n => piecesAll src emb n.els

/-- The title of the document. -/
def titleOf (els : List El) : List El :=
  match header els with
  | some (_, some t, _) => t
  | _ => []

/-- The name section of a manual page: its title and its first paragraph. -/
def namePieces (src : Bool) : El → List Piece
  | .sect _ _ title (.paragraph _ l :: _) => piecesAll src false title ++ piecesAll src false l
  | _ => []

/-- Whether the document is a manual page, in the context. -/
def isManpage (L : Lib) (c : Ctx) : Prop := getStrD L.sprint c.attrs "doctype" "article".toList = "manpage".toList

end Verif.Rend
