import Verif.Model.Render
/-!
How images are shown (C76): where they are taken from, and what is written for them.
-/
namespace Verif.Pictures
open Rend (AV El Attrs)

/-- A path in a directory. -/
def below (dir path : Text) : Text := if dir.getLast? = some '/' then dir ++ path else dir ++ '/' :: path

/-- The address of an image: relative paths are meant within `imagesdir`, if there is one; paths that begin with a slash and addresses with a scheme are left alone. `isURL` is
`url.Parse` and `IsAbs` of Go. -/
def source (isURL : Text → Option Bool) (dir scheme path : Text) : Text :=
  if dir ≠ [] ∧ scheme = [] ∧ path.head? ≠ some '/' ∧ isURL path = some false then below dir path else scheme ++ path

/-- An attribute that is text; empty if it is not given. -/
def text (a : Attrs) (k : String) : Text :=
  match AMap.get a k with
  | some (.str t) => t
  | _ => []

/-- An image, in a line or on its own. `place` tells one occurrence in the document from another. -/
structure Picture where
  alone : Bool
  place : Nat
  scheme : Text
  path : Text
  attrs : List (String × AV)

/-- What the parser makes of it. -/
def Picture.element (x : Picture) : El :=
  if x.alone then .imageBlock (.loc x.place x.scheme (.str x.path)) x.attrs else .inlineImage (.loc x.place x.scheme (.str x.path)) x.attrs

/-- The title, if any, is text; so are roles and the other attributes. -/
structure Bare (a : Attrs) : Prop where
  title : ∀ v, AMap.get a "title" = some v → ∃ t, v = .str t
  roles : ∀ v, AMap.get a "roles" = some v → ∃ l : List Text, v = .roles (l.map .str)
  text : ∀ k ∈ ["link", "width", "height"], ∀ v, AMap.get a k = some v → ∃ t, v = .str t

/-- Roles that are text. -/
def roleNames (a : Attrs) : List Text :=
  match AMap.get a "roles" with
  | some (.roles l) => l.filterMap fun v => match v with
    | .str t => some t
    | _ => none
  | _ => []

/-- What is said about the look of an image: where it floats, how it is aligned, and its roles. -/
def looks (a : Attrs) : List Text :=
  (match AMap.get a "float" with
   | some (.str t) => [t]
   | _ => []) ++
  (match AMap.get a "align" with
   | some (.str t) => ["text-".toList ++ t]
   | _ => []) ++
  roleNames a

/-- The classes of HTML, after the first one. -/
def more (l : List Text) : Text := if List.intercalate " ".toList l = [] then [] else ' ' :: List.intercalate " ".toList l

/-- An attribute of HTML, if its value is not empty. -/
def given (k : String) (v : Text) : Text := if v = [] then [] else " ".toList ++ k.toList ++ "=\"".toList ++ v ++ "\"".toList

/-- The alternative text: as given, or made from the address. -/
def altText (altOf : Text → Option Text) (a : Attrs) (src : Text) : Option Text :=
  match AMap.get a "alt" with
  | some (.str t) => some t
  | _ => altOf src

/-- The image and the link around it; `close` is `>` or `/>`. -/
def drawn (close : String) (a : Attrs) (src alt title : Text) : Text :=
  let img := "<img src=\"".toList ++ src ++ "\" alt=\"".toList ++ alt ++ "\"".toList ++ given "width" (text a "width") ++ given "height" (text a "height") ++ given "title" title ++ close.toList
  if text a "link" = [] then img else "<a class=\"image\" href=\"".toList ++ text a "link" ++ "\">".toList ++ img ++ "</a>".toList

/-- What is written for an image. -/
def html (close : String) (isURL : Text → Option Bool) (altOf : Text → Option Text) (dir : Text) (x : Picture) : Text :=
  let src := source isURL dir x.scheme x.path
  let img := drawn close x.attrs src ((altText altOf x.attrs src).getD []) (if x.alone then [] else text x.attrs "title")
  if x.alone then "<div".toList ++ given "id" (Rend.htmlEscape (text x.attrs "id")) ++ " class=\"imageblock".toList ++ more (looks x.attrs) ++ "\">\n<div class=\"content\">\n".toList ++ img ++ "\n</div>\n</div>\n".toList
  else "<span class=\"image".toList ++ more (looks x.attrs) ++ "\">".toList ++ img ++ "</span>".toList

/-- What is written for an image on its own with a title; `cap` is the caption before the title. -/
def figure (close : String) (isURL : Text → Option Bool) (altOf : Text → Option Text) (dir cap : Text) (x : Picture) : Text :=
  let src := source isURL dir x.scheme x.path
  "<div".toList ++ given "id" (Rend.htmlEscape (text x.attrs "id")) ++ " class=\"imageblock".toList ++ more (looks x.attrs) ++ "\">\n<div class=\"content\">\n".toList ++
  drawn close x.attrs src ((altText altOf x.attrs src).getD []) [] ++ "\n</div>\n<div class=\"title\">".toList ++ cap ++ text x.attrs "title" ++ "</div>\n</div>\n".toList

/-- Images on their own, with titles: the captions are a label and numbers one after the other, from `n + 1` on. -/
def figures (close : String) (isURL : Text → Option Bool) (altOf : Text → Option Text) (dir label : Text) : Nat → List Picture → Text
  | _, [] => []
  | n, x :: l => figure close isURL altOf dir (label ++ " ".toList ++ itoa (n + 1) ++ ". ".toList) x ++ figures close isURL altOf dir label (n + 1) l

end Verif.Pictures
