import Verif.Model.Ids

/-!
Model of the resolution of cross references at the end of the aggregation.
-/
namespace Verif

/-- document_processing_aggregate.go:95-103, 111-127: the identifiers of the cross references in the elements of the document (and in the elements these contain) are
resolved with the attributes `attrs` that are set at the end, but only if there are elements that can be referred to (`refs`). This is done in place: here, as a function on
identifiers, for those that are plain text. -/
def fixXref (alnum : Char → Bool) (fmt : Val → Text) (attrs : AMap Val) (refs : Refs) (id : Text) : Text :=
  if refs.length > 0 then resolveXref alnum fmt attrs (.str id) else id

end Verif
