import Verif.Spec.Inlined
import Verif.Spec.Outlined

/-!
Specification: documents with sections, lists and delimited blocks, and with inline markup in the paragraphs between them,
among which references to the sections.
-/
namespace Verif
namespace Woven
open Sectioned (Item Heading deeper sectionHtml named takeWhile_length dropWhile_length)

/-- The paragraphs of the document (those that are not in a block or in an item of a list) are texts with inline markup; in all other blocks and in lists,
there is none. -/
def Item.Ready (letter number : Char → Bool) (reading : Text → List Inlined.Piece) : Item → Prop
  | .block (.para l ls) => Inlined.Content letter number (Prose.text (l :: ls)) (reading (Prose.text (l :: ls)))
  | x => x.Plain

/-- A paragraph with markup in HTML. -/
def paragraph (v : Inlined.View) (ps : List Inlined.Piece) : Text := "<div class=\"paragraph\">\n<p>".toList ++ Inlined.html v ps ++ "</p>\n</div>\n".toList

/-- A block in HTML, for a reading of the paragraphs. -/
def block (v : Inlined.View) (reading : Text → List Inlined.Piece) : Composed.Block → Text
  | .para l ls => paragraph v (reading (Prose.text (l :: ls)))
  | b => b.html v.unicode

/-- Blocks, lists and sections in HTML: a section contains what follows its title, up to the next title whose level is not greater. -/
def html (v : Inlined.View) (reading : Text → List Inlined.Piece) : List (Item × Text) → Text
  | [] => []
  | (.block b, _) :: xs => block v reading b ++ html v reading xs
  | (.list n ns, _) :: xs => Listed.html v.unicode (n :: ns) ++ html v reading xs
  | (.heading h, id) :: xs =>
    sectionHtml v.lower v.unicode h id (html v reading (xs.takeWhile (deeper h.level))) ++ html v reading (xs.dropWhile (deeper h.level))
termination_by xs => xs.length
decreasing_by
  · simp
  · simp
  · have := takeWhile_length (deeper h.level) xs; simp only [List.length_cons]; omega
  · have := dropWhile_length (deeper h.level) xs; simp only [List.length_cons]; omega

/-- The titles, with the identifiers of their sections. -/
def sections (alnum : Char → Bool) (xs : List Item) : List (Heading × Text) := (named alnum [] xs).filterMap Outlined.titleOf

/-- The place meant by a reference: what contains a space is a title, from which an identifier is made, if there are sections; anything else is an identifier. -/
def target (alnum : Char → Bool) (xs : List Item) (id : Text) : Text :=
  if ' ' ∈ id ∧ sections alnum xs ≠ [] then Sectioned.anchor alnum id else id

/-- What is shown for a place: the title of the section with this identifier, or else the identifier. -/
def label (alnum : Char → Bool) (u : Bool) (xs : List Item) (id : Text) : Text :=
  match (sections alnum xs).find? (fun s => s.2 == id) with
  | some s => s.1.title.flatMap (Prose.char u)
  | none => "[".toList ++ id ++ "]".toList

/-- The references of a document. -/
def view (lower : Text → Text) (alnum : Char → Bool) (u : Bool) (xs : List Item) : Inlined.View := ⟨u, lower, target alnum xs, label alnum u xs⟩

/-- The whole page, without head. -/
def page (lower : Text → Text) (alnum : Char → Bool) (u : Bool) (reading : Text → List Inlined.Piece) (xs : List Item) : Text :=
  html (view lower alnum u xs) reading (named alnum [] xs)

/-- With a table of contents first. -/
def outlinedPage (lower : Text → Text) (alnum : Char → Bool) (u : Bool) (title : Text) (depth : Int) (reading : Text → List Inlined.Piece) (xs : List Item) : Text :=
  Outlined.table lower u title (Outlined.listed depth (named alnum [] xs)) ++ page lower alnum u reading xs

end Woven
end Verif
