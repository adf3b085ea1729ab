import Verif.Spec.Resolved
/-!
# Specification: settings of extensions
-/
namespace Verif.Spec.BuiltinExt
open Verif.Spec.Resolved (Whole)

/-- A switch after the settings were read: given, it is on just for the word `true`; otherwise it stays. -/
def Switch (given : Option (List Char)) (before now : Bool) : Prop :=
  match given with
  | some v => now = true ↔ v = "true".toList
  | none => now = before

/-- A limit after the settings were read: the whole number given, if it is one; otherwise it stays. -/
def Limit (given : Option (List Char)) (before now : Nat) : Prop :=
  (∃ v, given = some v ∧ Whole (2 ^ 64) v now) ∨ ((∀ v n, given = some v → ¬ Whole (2 ^ 64) v n) ∧ now = before)

/-- The decimal numeral of a number. -/
def number (n : Nat) : List Char := (toString n).toList

end Verif.Spec.BuiltinExt
