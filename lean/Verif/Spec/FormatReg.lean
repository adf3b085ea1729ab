import Verif.Model.FormatReg
import Verif.Spec.Converter
/-!
# Specification: the registry of formats
-/
namespace Verif.Spec.FormatReg
open Verif.FormatReg (Item Cls)
open Verif.Spec.Converter (Spelled)

/-- `x` is registered as `c` after the registrations `l`, made in this order: there is none of the same kind and name after its own. -/
def Registered (l : List (Cls × Item)) (c : Cls) (x : Item) : Prop :=
  ∃ a b, l = a ++ (c, x) :: b ∧ ∀ y, (c, y) ∈ b → y.name ≠ x.name

/-- The extension is one of these, whatever letters are capitals. -/
def Among (ext : List Char) (exts : List (List Char)) : Prop := ∃ e ∈ exts, ∃ w, Spelled e w ∧ Spelled ext w

/-- An order in which a hash map may give its values. -/
def Order (ord : List Item → List Item) : Prop := ∀ l, (ord l).Perm l

end Verif.Spec.FormatReg
