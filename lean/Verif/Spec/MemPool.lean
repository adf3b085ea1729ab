import Verif.Model.MemPool
/-!
# Session memory pool

Of the model only the data types are used: `Pool`, `Op`, `Stats`.
-/
namespace Verif.Spec.MemPool
open Verif.MemPool (Pool Op)

/-- The memory that the arenas have really reserved. -/
def reserved (p : Pool) : Nat := p.primary + p.temp

/-- The figures agree with the arenas. -/
def Current (p : Pool) : Prop := p.stats.memory_in_use = reserved p ∧ p.stats.total_allocated = reserved p

/-- Only allocations. -/
def Allocation : Op → Prop
  | .allocPrimary _ | .allocTemp _ => True
  | _ => False

/-- The calls that are asked to clean the main arena. -/
def Cleans : Op → Prop
  | .resetPrimary | .resetAll | .force _ => True
  | _ => False

/-- Resetting an arena gives memory back, or at least takes none. -/
def Releases (keep : Nat → Nat) : Prop := ∀ n, keep n ≤ n

end Verif.Spec.MemPool
