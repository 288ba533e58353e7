import Verif.Model.FragmentLoop
import Verif.Model.Values

/-!
The loop that splits a document into fragments (`pkg/parser/document_processing_parse_fragments.go`), with the elements of the fragments.
-/
namespace Verif
namespace FragmentLoop
open Peg Grammar
open Walk (Any)

/-- Lines 54-62: the elements of a fragment. -/
def elementsOf : Any → List Any
  | .slice es => es
  | v => [v]

/-- The elements of the fragments, how the loop ends, and the text that was not put in a fragment. -/
structure OutcomeV where
  fragments : List (List Any)
  stop : Stop
  rest : Text

/-- document_processing_parse_fragments.go:27-69 with `(*parser).next` (parser_ext.go:60-114), as `loop`; here the value of the rule is known.
`failed s`: errors were reported. -/
def loopV {σ : Type} (S : Sem σ) (A : Peg.Code σ) (failed : σ → Bool) (depth : Nat) : Nat → σ → Text → Option OutcomeV
  | 0, _, _ => none
  | _ + 1, _, [] => some ⟨[], .endOfDocument, []⟩
  | rounds + 1, s, c :: t =>
    match runV grammar S A depth (.rule R.DocumentFragment) (c :: t) s (c :: t) with
    | none => none
    | some (.fail _) => some ⟨[], .noMatch, c :: t⟩
    | some (.ok s' v u) =>
      if failed s' then some ⟨[], .reported, u⟩
      else match v with
        | [.nil] => some ⟨[], .nilValue, u⟩
        | v => match loopV S A failed depth rounds s' u with
          | none => none
          | some o => some { o with fragments := v.flatMap elementsOf :: o.fragments }

end FragmentLoop
end Verif
