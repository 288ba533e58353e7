import Verif.Model.Substitute
/-!
The stage that applies substitutions to all fragments of a document.
-/
namespace Verif.Walk

/-- document_processing_apply_substitutions.go:20-35 `ApplySubstitutions`: the fragments are treated one after the other, in the order in which they
arrive, with one and the same context: what a fragment declares or counts is known to those after it. (The channel, the signal `done` and the
goroutine are those of C10; the model ends with the first error, the stage goes on with the fragments after it, but the conversion fails then.) -/
def substStage (W : World) : Ctx → List Fragment → Except Bad (List Fragment × Ctx)
  | c, [] => .ok ([], c)
  | c, f :: fs => match substFragment W c f with
    | .error b => .error b
    | .ok (f, c) => match substStage W c fs with
      | .error b => .error b
      | .ok (fs, c) => .ok (f :: fs, c)

end Verif.Walk
