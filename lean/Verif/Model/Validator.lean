import Verif.Model.Ids
/-!
Model of pkg/validator/validator.go and of the part of libasciidoc.go (Convert) and pkg/renderer/sgml/sgml.go that depends on the
type of the document.
-/
namespace Verif.Validator

/-- An element of a document, as far as validation and the choice of the rendering depend on it. -/
inductive El where
  | header (es : List HElem)
  | front
  | blank
  | decl (name : String) (value : Val)
  | reset (name : String)
  | section (level : Int) (title : List TElem) (es : List El)
  | paragraph (n : Nat)
  | other (n : Nat)

/-- A Go run-time panic (index out of range, failed type assertion). -/
inductive Panic where
  | index
  | assertion
deriving DecidableEq, Repr

/-- validator.go:47, 53, 58, 63: the problems. -/
inductive Problem where
  | noHeader | noName | nameContent | noSynopsis
deriving DecidableEq, Repr

/-- types.go:111-126 `Header`. -/
def header : List El → Option (List HElem)
  | [] => none
  | .header hs :: _ => some hs
  | .blank :: es => header es
  | .front :: es => header es
  | _ => none

/-- types.go:129-142 `BodyElements`. -/
def bodyElements : List El → List El
  | [] => []
  | .header _ :: es => es
  | e :: es => e :: bodyElements es

/-- validator.go:101-109 `withTitle`; `lower` is `strings.ToLower`. -/
def withTitle (lower : Text → Text) (name : Text) (title : List TElem) : Bool :=
  match title with
  | [.str t] => lower t == name
  | _ => false

/-- validator.go:87-97 `isSection(withLevel(1), withTitle(name))`: the section and whether it matches. -/
def isSection1 (lower : Text → Text) (name : Text) : El → Option (List El)
  | .section level title es => if level = 1 ∧ withTitle lower name title = true then some es else none
  | _ => none

/-- validator.go:45-50: the problem with the header, if any. -/
def headerProblem (doc : List El) : List Problem :=
  match header doc with
  | none => [.noHeader]
  | some _ => []

/-- validator.go:42-70 `validateManpage`. -/
def validateManpage (lower : Text → Text) (doc : List El) : Except Panic (List Problem) :=
  match bodyElements doc with
  | [] => .error .index
  | e0 :: rest =>
    match isSection1 lower "name".toList e0 with
    | none => .ok (headerProblem doc ++ [.noName])
    | some es =>
      if es.length ≠ 1 then .ok (headerProblem doc ++ [.nameContent])
      else match rest with
        | [] => .error .index
        | e1 :: _ =>
          match isSection1 lower "synopsis".toList e1 with
          | none => .ok (headerProblem doc ++ [.noSynopsis])
          | some _ => .ok (headerProblem doc)

/-- validator.go:11-16 `Validate`. -/
def validate (lower : Text → Text) (doc : List El) (doctype : Text) : Except Panic (List Problem) :=
  if doctype = "manpage".toList then validateManpage lower doc else .ok []

/-- sgml.go:51-61: declarations and resets of the header. -/
def headerAttrs : List HElem → AMap Val → AMap Val
  | [], a => a
  | .decl name v :: hs, a => headerAttrs hs (a.set name v)
  | .reset name :: hs, a => headerAttrs hs (a.del name)
  | .other _ :: hs, a => headerAttrs hs a

/-- sgml.go:62-73: the declarations and resets at the very beginning of the document. -/
def leadingAttrs : List El → AMap Val → AMap Val
  | .decl name v :: es, a => leadingAttrs es (a.set name v)
  | .reset name :: es, a => leadingAttrs es (a.del name)
  | _, a => a

/-- sgml.go:51-73: the attributes when the content is rendered. -/
def renderAttrs (doc : List El) (config : AMap Val) : AMap Val :=
  leadingAttrs doc (match header doc with
    | some hs => headerAttrs hs config
    | none => config)

/-- The two ways to render a document. -/
inductive Mode where
  | article | manpage
deriving DecidableEq, Repr

/-- sgml.go:244-276 `splitAndRenderForManpage` and 350-368 `renderManpageHeader`, as far as they may panic: the first element must be
a section whose first element is a paragraph. (Titles are supposed to be rendered without error.) -/
def renderManpage (doc : List El) : Except Panic Mode :=
  match bodyElements doc with
  | [] => .error .index
  | .section _ _ es :: _ => match es with
    | [] => .error .index
    | .paragraph _ :: _ => .ok .manpage
    | _ => .error .assertion
  | _ => .error .assertion

/-- sgml.go:216-223 `splitAndRender`; `fmt` is `fmt.Sprintf("%v")`. -/
def splitAndRender (fmt : Val → Text) (attrs : AMap Val) (doc : List El) : Except Panic Mode :=
  if getAsStringWithDefault fmt attrs "doctype" "article".toList = "manpage".toList then renderManpage doc else .ok .article

/-- libasciidoc.go:72-96 `Convert`, from validation on: how the document is rendered. -/
def convert (lower : Text → Text) (fmt : Val → Text) (config : AMap Val) (doc : List El) : Except Panic Mode :=
  match validate lower doc (getAsStringWithDefault fmt config "doctype" "article".toList) with
  | .error p => .error p
  | .ok [] => splitAndRender fmt (renderAttrs doc config) doc
  | .ok (_ :: _) => splitAndRender fmt (renderAttrs doc (config.set "doctype" (.str "article".toList))) doc

end Verif.Validator
