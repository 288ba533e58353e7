import Verif.Model.Targets
/-!
What a reference `<<id>>` leads to (C74): the last element of the document, from top to bottom, which bears the identifier together with a title.
-/
namespace Verif.Referable
open Rend (AV El Attrs)
open Target (Node Entry)

mutual
/-- An element and all that are in it, at any depth, from top to bottom. -/
def elements : Node → List Node
  | .block a es => .block a es :: elementsOf es
  | .list a is => .list a is :: elementsOf is
  | .item a es => .item a es :: elementsOf es
  | .labeled a t es => .labeled a t es :: elementsOf es
  | .table a h rs f => .table a h rs f :: (ofRow h ++ ofRows rs ++ ofRow f)
  | e => [e]
def elementsOf : List Node → List Node
  | [] => []
  | e :: l => elements e ++ elementsOf l
def ofRow : List (List Node) → List Node
  | [] => []
  | c :: l => elementsOf c ++ ofRow l
def ofRows : List (List (List Node)) → List Node
  | [] => []
  | r :: l => ofRow r ++ ofRows l
end

/-- The attributes of an element. -/
def attrs : Node → Attrs
  | .paragraph a => a
  | .image a => a
  | .block a _ => a
  | .list a _ => a
  | .item a _ => a
  | .labeled a _ _ => a
  | .table a _ _ _ => a
  | .other => []

/-- An identifier and a title that are both given, and not reset. -/
def pair (id title : Option AV) : List (Text × AV) :=
  match id, title with
  | _, some .nil => []
  | some (.str (c :: t)), some title => [(c :: t, title)]
  | _, _ => []

/-- The names that an element bears: its identifier with its title; and for an element of a labeled list that begins with an anchor (`[[id]]term::`), the identifier
of the anchor with the rest of the term. -/
def names : Node → List (Text × AV)
  | .labeled a t _ => pair (AMap.get a "id") (AMap.get a "title") ++
    (match t with
     | .link _ b :: l => pair (AMap.get b "id") (some (.els l))
     | _ => [])
  | e => pair (AMap.get (attrs e) "id") (AMap.get (attrs e) "title")

/-- The names in a document, from top to bottom; the title of a section is its name, under the identifier that the section has. -/
def documentNames : List Entry → List (Text × AV)
  | [] => []
  | .sect id title :: l => pair (some (.str id)) (title.map AV.els) ++ documentNames l
  | .node e :: l => (elements e).flatMap names ++ documentNames l

/-- The last of the names with this identifier. -/
def Leads (ns : List (Text × AV)) (id : Text) (title : AV) : Prop :=
  ∃ before after, ns = before ++ (id, title) :: after ∧ ∀ p ∈ after, p.1 ≠ id

/-- Identifiers are text; titles of images are text, and not empty, or reset. -/
def Plain (a : Attrs) : Prop :=
  ∀ v, AMap.get a "id" = some v → ∃ t, v = .str t

def NodeOk : Node → Prop
  | .image a => Plain a ∧ ∀ v, AMap.get a "title" = some v → v = .nil ∨ ∃ c t, v = .str (c :: t)
  | .labeled a t _ => Plain a ∧ ∀ loc b l, t = .link loc b :: l → ∀ v, AMap.get b "id" = some v → ∃ u, v = .str u
  | e => Plain (attrs e)

def Ok : Entry → Prop
  | .sect _ _ => True
  | .node e => ∀ x ∈ elements e, NodeOk x

end Verif.Referable
