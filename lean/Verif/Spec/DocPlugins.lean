/-!
# The first one of a name
-/
namespace Verif.Spec.DocPlugins

/-- `a` is the first one in the list with the name `n`. -/
def First {α : Type} (name : α → List Char) (l : List α) (n : List Char) (a : α) : Prop :=
  ∃ pre post, l = pre ++ a :: post ∧ name a = n ∧ ∀ b ∈ pre, name b ≠ n

end Verif.Spec.DocPlugins
