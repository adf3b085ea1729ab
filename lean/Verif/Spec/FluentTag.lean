/-!
# Specification: operations on a stretch of the text

Nothing here refers to the model.
-/
namespace Verif.Spec.FluentTag

/-- Between `a` and `b` something else may stand now; `a` and `b` stand as they stood. -/
def Within (a b s : List Char) : Prop := ∃ m, s = a ++ m ++ b

end Verif.Spec.FluentTag
