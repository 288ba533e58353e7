import Verif.Model.Basic
/-!
Specification of well-formed output (C51): a grammar of HTML and of XHTML fragments, independent of the
renderer.

A fragment is a sequence of characters of text (neither `<` nor `>`), of elements `<n …>…</n>` whose
end tag has the name of the start tag, and of empty elements.  With `xml := false` (HTML) the void
elements (`br`, `img`, …) have no end tag, and an attribute may have no value; with `xml := true`
(XHTML) an empty element is written `<n …/>`, no element is void, and every attribute has a value.
An attribute value is quoted by `"` and contains neither `"` nor `<`.

With `oneLine := true` there is moreover no line break within a tag: all the line breaks are in the text.

Not part of this notion: which elements may be nested in which, the uniqueness of the attributes of an
element, the syntax of character references (`&…;`), comments.
-/
namespace Verif.Html

/-- Which language, and whether a tag has to be on one line. -/
structure Rules where
  xml : Bool
  oneLine : Bool
deriving DecidableEq, Repr

/-- HTML: a tag may span lines. -/
def html : Rules := ⟨false, false⟩

/-- XHTML: a tag may span lines. -/
def xhtml : Rules := ⟨true, false⟩

def Letter (c : Char) : Prop := ('a' ≤ c ∧ c ≤ 'z') ∨ ('A' ≤ c ∧ c ≤ 'Z')

def NameChar (c : Char) : Prop :=
  Letter c ∨ ('0' ≤ c ∧ c ≤ '9') ∨ c = '-' ∨ c = '_' ∨ c = ':' ∨ c = '.'

/-- The name of an element or of an attribute. -/
def Name (n : Text) : Prop := ∃ c r, n = c :: r ∧ Letter c ∧ ∀ x ∈ r, NameChar x

/-- White space within a tag. -/
def Blank (R : Rules) (c : Char) : Prop := c = ' ' ∨ c = '\t' ∨ (c = '\n' ∧ R.oneLine = false)

/-- A character of an attribute value. -/
def ValueChar (R : Rules) (c : Char) : Prop := c ≠ '"' ∧ c ≠ '<' ∧ (R.oneLine = true → c ≠ '\n')

/-- The elements without end tag, in HTML. -/
def voidNames : List Text :=
  ["area".toList, "base".toList, "br".toList, "col".toList, "embed".toList, "hr".toList, "img".toList,
   "input".toList, "link".toList, "meta".toList, "source".toList, "track".toList, "wbr".toList]

def Void (R : Rules) (n : Text) : Prop := R.xml = false ∧ n ∈ voidNames

/-- What follows the name of the element in a start tag: attributes, each preceded by white space. -/
inductive Attrs (R : Rules) : Text → Prop
  | done {b} : (∀ c ∈ b, Blank R c) → Attrs R b
  | flag {b n rest} : R.xml = false → b ≠ [] → (∀ c ∈ b, Blank R c) → Name n → Attrs R rest →
      Attrs R (b ++ n ++ rest)
  | value {b n v rest} : b ≠ [] → (∀ c ∈ b, Blank R c) → Name n → (∀ c ∈ v, ValueChar R c) → Attrs R rest →
      Attrs R (b ++ n ++ ('=' :: '"' :: v ++ ['"']) ++ rest)

/-- A well-formed fragment. -/
inductive Markup (R : Rules) : Text → Prop
  | empty : Markup R []
  | char {c rest} : c ≠ '<' → c ≠ '>' → Markup R rest → Markup R (c :: rest)
  | element {n a inner rest} : Name n → ¬ Void R n → Attrs R a → Markup R inner → Markup R rest →
      Markup R (('<' :: n ++ a ++ ['>']) ++ inner ++ ('<' :: '/' :: n ++ ['>']) ++ rest)
  | void {n a rest} : Name n → Void R n → Attrs R a → Markup R rest →
      Markup R (('<' :: n ++ a ++ ['>']) ++ rest)
  | selfClosed {n a rest} : Name n → (R.xml = true ∨ Void R n) → Attrs R a → Markup R rest →
      Markup R (('<' :: n ++ a ++ ['/', '>']) ++ rest)

/-- What may be written in an attribute value. -/
def Value (R : Rules) (t : Text) : Prop := ∀ c ∈ t, ValueChar R c

/-- Text without tags. -/
def Plain (t : Text) : Prop := ∀ c ∈ t, c ≠ '<' ∧ c ≠ '>'

end Verif.Html
