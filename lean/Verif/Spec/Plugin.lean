import Verif.Model.Plugin
/-!
# Specification: effect plugins

Of the model only the data types are used.
-/
namespace Verif.Spec.Plugin
open Verif.Plugin (Effect Call Value)

/-- A call that takes away the effect of this name, or puts another in its place. -/
def Replaces (name : List Char) : Call → Prop
  | .register e => e.name = name
  | .unregister n => n = name
  | .clear => True

/-- The effect `e` is the one in force under its name: it was registered, and nothing has replaced it since. -/
def InForce (cs : List Call) (e : Effect) : Prop :=
  ∃ before after, cs = before ++ .register e :: after ∧ ∀ c ∈ after, ¬ Replaces e.name c

/-- The value last given to a key. -/
def LastGiven (ss : List (List Char × Value)) (key : List Char) (v : Value) : Prop :=
  ∃ before after, ss = before ++ (key, v) :: after ∧ ∀ s ∈ after, s.1 ≠ key

end Verif.Spec.Plugin
