/-!
# Outcomes of Rust calls
-/
namespace Verif

/-- Result of a Rust call: a value, a returned error, or a panic. -/
inductive Outcome (α : Type) where
  | ok (a : α)
  | err
  | panic
  deriving DecidableEq, Repr

namespace Outcome
/-- The call returned a value. -/
def isOk : Outcome α → Bool
  | ok _ => true
  | _ => false
end Outcome

end Verif
