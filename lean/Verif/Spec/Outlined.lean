import Verif.Spec.Sectioned

/-!
Specification: the table of contents of a document with sections.
-/
namespace Verif
namespace Outlined
open Sectioned (Heading Item)

/-- The level of a section. -/
def levelOf : Item → Option Nat
  | .heading h => some h.level
  | _ => none

/-- The levels of the sections that are to be listed. -/
def levels (depth : Int) (xs : List Item) : List Nat :=
  (xs.filterMap levelOf).filter (fun l => decide ((l : Int) ≤ depth))

/-- The level never grows by more than one. -/
def Steps : List Nat → Prop
  | a :: b :: ls => b ≤ a + 1 ∧ Steps (b :: ls)
  | _ => True

/-- No level is skipped: the first section has the smallest level, and the level never grows by more than one. -/
def Gapless (ls : List Nat) : Prop := (∀ f ∈ ls.head?, ∀ l ∈ ls, f ≤ l) ∧ Steps ls

/-- A section, with its identifier. -/
def titleOf : Item × Text → Option (Heading × Text)
  | (.heading h, id) => some (h, id)
  | _ => none

/-- The sections to be listed, with their identifiers. -/
def listed (depth : Int) (ys : List (Item × Text)) : List (Heading × Text) :=
  (ys.filterMap titleOf).filter (fun x => decide ((x.1.level : Int) ≤ depth))

/-- An entry: a link to the section, with its title, and the entries below it. -/
def entry (lower : Text → Text) (u : Bool) (h : Heading) (id below : Text) : Text :=
  "<li><a href=\"#".toList ++ lower id ++ "\">".toList ++ h.title.flatMap (Prose.char u) ++ "</a>".toList ++ (if below = [] then [] else "\n".toList ++ below) ++
    "</li>\n".toList

/-- A list of entries of one level. -/
def list (level : Nat) (items : Text) : Text :=
  "<ul class=\"sectlevel".toList ++ (toString level).toList ++ "\">\n".toList ++ items ++ "</ul>\n".toList

/-- A deeper section. -/
def below (n : Nat) (x : Heading × Text) : Bool := decide (n < x.1.level)

/-- The entries: below each one, those up to the next section whose level is not greater. -/
def entries (lower : Text → Text) (u : Bool) : List (Heading × Text) → Text
  | [] => []
  | (h, id) :: xs =>
    entry lower u h id (if xs.takeWhile (below h.level) = [] then [] else list (h.level + 1) (entries lower u (xs.takeWhile (below h.level)))) ++
      entries lower u (xs.dropWhile (below h.level))
termination_by xs => xs.length
decreasing_by
  · have := Sectioned.takeWhile_length (below h.level) xs; simp only [List.length_cons]; omega
  · have := Sectioned.dropWhile_length (below h.level) xs; simp only [List.length_cons]; omega

/-- The table of contents; nothing if no section is to be listed. -/
def table (lower : Text → Text) (u : Bool) (title : Text) : List (Heading × Text) → Text
  | [] => []
  | x :: xs =>
    "<div id=\"toc\" class=\"toc\">\n<div id=\"toctitle\">".toList ++ title ++ "</div>\n".toList ++ list x.1.level (entries lower u (x :: xs)) ++ "</div>\n".toList

/-- The whole page, without head: the table of contents, then the document. -/
def page (lower : Text → Text) (alnum : Char → Bool) (u : Bool) (title : Text) (depth : Int) (xs : List Item) : Text :=
  table lower u title (listed depth (Sectioned.named alnum [] xs)) ++ Sectioned.page lower alnum u xs

end Outlined
end Verif
