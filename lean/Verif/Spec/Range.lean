import Verif.Model.Range
/-!
# Specification: a range denotes a half-open set of positions
-/
namespace Verif.Spec
open Verif.Pos

/-- Position `p` belongs to the half-open interval from `r.start` to `r.fin`. -/
def In (p : Nat) (r : Range) : Prop := r.start ≤ p ∧ p < r.fin

/-- Well-ordered ranges (everything the constructors build). -/
def Ordered (r : Range) : Prop := r.start ≤ r.fin

instance (r : Range) : Decidable (Ordered r) := inferInstanceAs (Decidable (r.start ≤ r.fin))

end Verif.Spec
