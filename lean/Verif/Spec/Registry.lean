import Verif.Model.Registry
/-!
# Specification: what a registry holds after a sequence of calls
-/
namespace Verif.Spec.Reg
open Verif Verif.Registry

/-- The call registers under the tag name `n`. -/
def AddsTag (n : Str) (o : Op) : Prop := ∃ h, o = .addTag h ∧ h.name = n

/-- The call takes the tag name `n` away. -/
def DropsTag (n : Str) (o : Op) : Prop := o = .dropTag n ∨ o = .clear

/-- `h` was registered first under its name since that name was last taken away. -/
def CurrentTag (ops : List Op) (h : Tag) : Prop :=
  ∃ a b post, ops = a ++ b ++ .addTag h :: post ∧
    (a = [] ∨ ∃ a' o, a = a' ++ [o] ∧ DropsTag h.name o) ∧
    (∀ o ∈ b, ¬ AddsTag h.name o) ∧ (∀ o ∈ post, ¬ DropsTag h.name o)

/-- The call registers under the section name `n`. -/
def AddsSec (n : Str) (o : Op) : Prop := ∃ p, o = .addSec p ∧ p.name = n

/-- The call takes the section name `n` away. -/
def DropsSec (n : Str) (o : Op) : Prop := o = .dropSec n ∨ o = .clear

/-- `p` was registered first under its name since that name was last taken away. -/
def CurrentSec (ops : List Op) (p : Sec) : Prop :=
  ∃ a b post, ops = a ++ b ++ .addSec p :: post ∧
    (a = [] ∨ ∃ a' o, a = a' ++ [o] ∧ DropsSec p.name o) ∧
    (∀ o ∈ b, ¬ AddsSec p.name o) ∧ (∀ o ∈ post, ¬ DropsSec p.name o)

end Verif.Spec.Reg
