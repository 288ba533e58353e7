import Verif.Model.Render
/-!
How links are shown (C78): where they lead, and what is written for them.
-/
namespace Verif.Links
open Rend (AV El Attrs)

/-- What a link says: its address, if nothing is given; a text; or inline elements, with what they are shown as. -/
inductive Label where
  | bare
  | plain (t : Text)
  | marked (els : List El) (shown : Text)

/-- A link. `place` tells one occurrence of an address in the document from another. -/
structure Link where
  scheme : Text
  path : Text
  place : Nat
  attrs : Attrs
  label : Label

def Link.address (x : Link) : Text := x.scheme ++ x.path

/-- What the parser makes of it. -/
def Link.element (x : Link) : El := .link (some (.loc x.place x.scheme (.str x.path))) x.attrs

/-- An attribute that is text; empty if it is not given. -/
def text (a : Attrs) (k : String) : Text :=
  match AMap.get a k with
  | some (.str t) => t
  | _ => []

/-- The label is the attribute `text`; there are these roles; the identifier and the window are text. Roles of addresses of mail are excluded (a
finding). -/
structure Stated (x : Link) (roles : List Text) : Prop where
  label : AMap.get x.attrs "text" = match x.label with
    | .bare => none
    | .plain t => some (.str t)
    | .marked els _ => some (.els els)
  ofRoles : (roles = [] ∧ AMap.get x.attrs "roles" = none) ∨ AMap.get x.attrs "roles" = some (.roles (roles.map .str))
  named : ∀ r ∈ roles, r ≠ []
  mail : x.scheme = "mailto:".toList → x.label = .bare → roles = []
  text : ∀ k ∈ ["id", "window"], ∀ v, AMap.get x.attrs k = some v → ∃ t, v = .str t

/-- An attribute of HTML, if its value is not empty. -/
def given (k : String) (v : Text) : Text := if v = [] then [] else " ".toList ++ k.toList ++ "=\"".toList ++ v ++ "\"".toList

/-- Words, with a space between them. -/
def spaced : List Text → Text
  | [] => []
  | [w] => w
  | w :: l => w ++ ' ' :: spaced l

/-- The classes of a link: its roles; and `bare` before them, if it shows its address, which is not that of a mail. -/
def classes (x : Link) (roles : List Text) : List Text :=
  match x.label with
  | .bare => if x.scheme = "mailto:".toList then roles else "bare".toList :: roles
  | _ => roles

/-- What is between `<a …>` and `</a>`; `esc` escapes what must be in HTML. -/
def shown (esc : Text → Text) (x : Link) : Text :=
  match x.label with
  | .bare => esc (if x.scheme = "mailto:".toList then x.path else x.address)
  | .plain t => esc t
  | .marked _ t => t

/-- Whether the page that is opened may not know of this one. -/
def apart (x : Link) : Bool := text x.attrs "window" = "_blank".toList || Rend.hasOption x.attrs "noopener"

/-- What is written for a link. -/
def html (esc : Text → Text) (x : Link) (roles : List Text) : Text :=
  "<a".toList ++ given "id" (text x.attrs "id") ++ given "href" (esc x.address) ++ given "class" (spaced (classes x roles)) ++ given "target" (text x.attrs "window") ++
  (if apart x then " rel=\"noopener\"".toList else []) ++ ">".toList ++ shown esc x ++ "</a>".toList

/-- What is written for a reference to another document: the address has `.html` in place of the extension. -/
def other (base label : Text) : Text := "<a href=\"".toList ++ base ++ ".html\">".toList ++ label ++ "</a>".toList

/-- What is written for a reference without an extension: a place in this document. -/
def here (name label : Text) : Text := "<a href=\"#".toList ++ name ++ "\">".toList ++ label ++ "</a>".toList

end Verif.Links
