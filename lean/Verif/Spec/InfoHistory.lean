import Verif.Spec.InfoCmd
/-!
# Specification: a history of changes to the properties of a script

Nothing here refers to the model.
-/
namespace Verif.Spec.InfoHistory
open Verif.Spec.EventCmd (Lacks Trimmed)
open Verif.Spec.InfoCmd

/-- A change. -/
inductive Op where
  | set (p v : List Char)
  | delete (p : List Char)

/-- The property it names. -/
def Op.name : Op → List Char
  | .set p _ => p
  | .delete p => p

/-- Names and values are parts of lines, no name begins with a bracket and no value with white space, nor ends with it. -/
def Op.Ok : Op → Prop
  | .set p v => '\n' ∉ p ∧ p.head? ≠ some '[' ∧ '\n' ∉ v ∧ Trimmed v
  | .delete p => '\n' ∉ p

/-- The lines these changes write contain the name `q`, followed by `: `, only if they are lines of `q`. -/
def TidyOps (q : List Char) (ops : List Op) : Prop :=
  ∀ p v, Op.set p v ∈ ops → p ≠ q → Lacks (q ++ ": ".toList) (line (p, v))

/-- What a map from names to values says about `q` after these changes, having said `r` before. -/
def reads (q : List Char) (r : Option (List Char)) : List Op → Option (List Char)
  | [] => r
  | .set p v :: ops => reads q (if p = q then some v else r) ops
  | .delete p :: ops => reads q (if p = q then none else r) ops

end Verif.Spec.InfoHistory
