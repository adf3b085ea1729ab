import Verif.Model.StyleOps
/-!
# Specification: the value last set
-/
namespace Verif.Spec.StyleOps
open Verif Verif.StyleOps

/-- The value of a boolean field. -/
def flag (b : Bool) (v : Str) : Prop := (b = true ∧ v = ['-', '1']) ∨ (b = false ∧ v = ['0'])

/-- What a setter sets. -/
inductive Sets : Setter → Str → Str → Prop where
  | font (f : Str) : Sets (.font f) "Fontname".toList f
  | size (n : Nat) : Sets (.size n) "Fontsize".toList (showNat n)
  | color (c : Str) : Sets (.color c) "PrimaryColour".toList c
  | bold (b : Bool) (v : Str) (h : flag b v) : Sets (.bold b) "Bold".toList v
  | italic (b : Bool) (v : Str) (h : flag b v) : Sets (.italic b) "Italic".toList v
  | alignment (n : Nat) : Sets (.alignment n) "Alignment".toList (showNat n)
  | field (k v : Str) : Sets (.field k v) k v

/-- `v` is the value last set for the field `k`. -/
def LastSet (ss : List Setter) (k v : Str) : Prop :=
  ∃ a s b, ss = a ++ s :: b ∧ Sets s k v ∧ ∀ x ∈ b, ∀ w, ¬ Sets x k w

end Verif.Spec.StyleOps
