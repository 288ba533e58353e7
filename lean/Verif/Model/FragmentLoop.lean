import Verif.Model.Grammar

/-!
The loop that splits a document into fragments (`pkg/parser/document_processing_parse_fragments.go`).
-/
namespace Verif
namespace FragmentLoop
open Peg Grammar

/-- How the loop ends. -/
inductive Stop where
  /-- the end of the document: `next` returns `nil, nil` (parser_ext.go:61-64) -/
  | endOfDocument
  /-- `DocumentFragment` does not match (an error fragment is emitted, lines 46-50) -/
  | noMatch
  /-- the code in the grammar reported an error (the same lines) -/
  | reported
  /-- `DocumentFragment` matches, with the value nil (lines 51-53) -/
  | nilValue
deriving DecidableEq, Repr

/-- The fragments (positions in the source, from `p.pt.offset` before and after), how the loop ends, and the text
that was not put in a fragment. -/
structure Outcome where
  fragments : List (Nat × Nat)
  stop : Stop
  rest : Text

/-- document_processing_parse_fragments.go:27-69 with `(*parser).next` (parser_ext.go:60-114): `rounds` bounds the number
of turns and `depth` the depth of calls of the parser. `failed s`: errors were reported; `nilValue s`: the value
of the rule is nil. Simplified: offsets count characters, not bytes; the channel and logs are not modelled
(`done` is part of C10). -/
def loop {σ : Type} (S : Sem σ) (failed nilValue : σ → Bool) (depth : Nat) : Nat → Nat → σ → Text → Option Outcome
  | 0, _, _, _ => none
  | _ + 1, _, _, [] => some ⟨[], .endOfDocument, []⟩
  | rounds + 1, offset, s, c :: t =>
    match run grammar S depth (.rule R.DocumentFragment) (c :: t) s (c :: t) with
    | none => none
    | some (.fail _) => some ⟨[], .noMatch, c :: t⟩
    | some (.ok s' u) =>
      if failed s' then some ⟨[], .reported, u⟩
      else if nilValue s' then some ⟨[], .nilValue, u⟩
      else match loop S failed nilValue depth rounds (offset + ((c :: t).length - u.length)) s' u with
        | none => none
        | some o => some { o with fragments := (offset, offset + ((c :: t).length - u.length)) :: o.fragments }

end FragmentLoop
end Verif
