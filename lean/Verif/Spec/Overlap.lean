/-!
# Specification: overlapping intervals
-/
namespace Verif.Spec.Ov

/-- The half-open intervals share an instant. -/
def Meet (a b : Nat × Nat) : Prop := ∃ t, (a.1 ≤ t ∧ t < a.2) ∧ (b.1 ≤ t ∧ t < b.2)

end Verif.Spec.Ov
