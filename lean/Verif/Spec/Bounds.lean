import Verif.Spec.Incremental
import Verif.Spec.IncEdit
/-!
# Specification: the bounds of sections
-/
namespace Verif.Spec.Bounds
open Verif.Update (Kind)
open Verif.Spec.Script (size)
open Verif.Spec.Incremental (usual)

/-- The header of the kind stands at byte `e`, in the line that begins at byte `n`. -/
def Stands (src : List Char) (k : Kind) (e n : Nat) : Prop :=
  ∃ l m r, src = l ++ m ++ usual k ++ r ∧ '\n' ∉ m ∧ (l = [] ∨ ∃ t, l = t ++ ['\n']) ∧ size l = n ∧ size (l ++ m) = e

end Verif.Spec.Bounds
