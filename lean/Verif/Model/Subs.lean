import Verif.Model.Basic
/-!
Model of pkg/parser/document_substitutions.go.
-/
namespace Verif.Subs

/-- document_substitutions.go:12-31: the substitutions (`none` is not one: it names the empty group, line 249). -/
inductive Sub where
  | attributes | callouts | passthroughs | macros | postReplacements | quotes | replacements | specialchars
deriving DecidableEq, Repr

/-- document_substitutions.go:33-45. -/
def normal : List Sub := [.passthroughs, .attributes, .specialchars, .quotes, .replacements, .macros, .postReplacements]

/-- document_substitutions.go:47-58. -/
def header : List Sub := [.passthroughs, .attributes, .specialchars, .quotes, .macros, .replacements]

/-- document_substitutions.go:60-71. -/
def attributeSubs : List Sub := [.passthroughs, .attributes, .specialchars, .quotes, .replacements]

/-- document_substitutions.go:77-84. -/
def verbatim : List Sub := [.callouts, .specialchars]

/-- document_substitutions.go:240-258 `substitutionsFor`; `none` is the error. -/
def substitutionsFor (s : Text) : Option (List Sub) :=
  if s = "normal".toList then some normal
  else if s = "none".toList then some []
  else if s = "verbatim".toList then some verbatim
  else if s = "attributes".toList then some [.attributes]
  else if s = "macros".toList then some [.macros]
  else if s = "quotes".toList then some [.quotes]
  else if s = "replacements".toList then some [.replacements]
  else if s = "post_replacements".toList then some [.postReplacements]
  else if s = "callouts".toList then some [.callouts]
  else if s = "specialchars".toList then some [.specialchars]
  else none

/-- What `defaultSubstitutions` distinguishes: the kind of a delimited block, or the style of a paragraph. -/
inductive Block where
  | example_ | quote | verse | sidebar | markdownQuote | open_ | comment | pass | listing | fenced | literal
  | listingParagraph | passParagraph | literalParagraph | sourceParagraph | otherParagraph | other
deriving DecidableEq, Repr

/-- document_substitutions.go:134-159 `defaultSubstitutions`. -/
def default : Block → List Sub
  | .example_ | .quote | .verse | .sidebar | .markdownQuote | .open_ => normal
  | .comment | .pass => []
  | .listing | .fenced | .literal => verbatim
  | .listingParagraph => verbatim
  | .passParagraph => []
  | .literalParagraph | .sourceParagraph | .otherParagraph => normal
  | .other => normal

/-- `strings.Split(s, ",")`. -/
def splitComma : Text → List Text
  | [] => [[]]
  | c :: t => if c = ',' then [] :: splitComma t else
    match splitComma t with
    | [] => [[c]]
    | l :: ls => (c :: l) :: ls

/-- `strings.HasSuffix(sub, "+")`. -/
def endsPlus (s : Text) : Bool := s.getLast? == some '+'

/-- `strings.HasPrefix(sub, "+")` or `"-"`. -/
def starts (c : Char) (s : Text) : Bool := s.head? == some c

/-- document_substitutions.go:162-171 `allIncremental`. -/
def allIncremental (subs : List Text) : Bool := subs.all (fun s => starts '+' s || starts '-' s || endsPlus s)

/-- document_substitutions.go:222-238 `remove`: the loops. -/
def removeAll (seq : List Sub) : List Sub → List Sub
  | [] => seq
  | r :: rs => removeAll (seq.filter (fun s => s ≠ r)) rs

/-- document_substitutions.go:106-125: one entry of the loop, with `append` (204-211), `prepend` (213-220) and `remove`
(222-238). -/
def applyOne (seq : List Sub) (s : Text) : Option (List Sub) :=
  if endsPlus s then (substitutionsFor s.dropLast).map (fun o => o ++ seq)
  else if starts '+' s then (substitutionsFor (s.drop 1)).map (fun o => seq ++ o)
  else if starts '-' s then (substitutionsFor (s.drop 1)).map (fun o => removeAll seq o)
  else (substitutionsFor s).map (fun o => seq ++ o)

/-- document_substitutions.go:105-126: the loop. -/
def applyAll (seq : List Sub) : List Text → Option (List Sub)
  | [] => some seq
  | s :: ss => match applyOne seq s with
    | none => none
    | some seq => applyAll seq ss

/-- document_substitutions.go:90-132 `newSubstitutions`, given the value of the `subs` attribute if there is one. -/
def newSubstitutions (b : Block) : Option Text → Option (List Sub)
  | none => some (default b)
  | some attr =>
    let subs := splitComma attr
    applyAll (if allIncremental subs then default b else []) subs

/-- document_substitutions.go:184-191: the loop of `split`, over the rest of the sequence. -/
def splitLoop (phase2 : Option (List Sub)) : List Sub → Option (List Sub)
  | [] => phase2
  | s :: ss => splitLoop (if s = .attributes ∧ ss ≠ [] then some ss else phase2) ss

/-- document_substitutions.go:180-193 `split`: the substitutions of the second phase (the first one has all of them). -/
def split (seq : List Sub) : Option (List Sub) := splitLoop none seq

end Verif.Subs
