import Verif.Model.Styles
/-!
# Specification: style inheritance
-/
namespace Verif.Spec.Sty
open Verif Verif.Styles

variable {B R : Type}

/-- `a` inherits directly from `b`: a style named `a` names the existing style `b` as parent. -/
def Inherits (styles : List (Style B)) (a b : Str) : Prop :=
  ∃ s ∈ styles, s.name = a ∧ s.parent = some b ∧ ∃ p ∈ styles, p.name = b

/-- Some style inherits from itself, directly or through others. -/
def Circular (styles : List (Style B)) : Prop := ∃ a, Relation.TransGen (Inherits styles) a a

/-- What inheritance means: a style naming an existing parent is resolved from its resolved parent, any
other style on its own. -/
def InheritanceApplied (fromStyle : Style B → Option R) (withParent : Style B → R → Option R)
    (styles : List (Style B)) (res : Map Str R) : Prop :=
  ∀ s ∈ styles,
    (∀ p, s.parent = some p → (∃ q ∈ styles, q.name = p) →
      ∃ pr, res.get p = some pr ∧ res.get s.name = withParent s pr) ∧
    ((s.parent = none ∨ ∃ p, s.parent = some p ∧ ¬ ∃ q ∈ styles, q.name = p) →
      res.get s.name = fromStyle s)

end Verif.Spec.Sty
