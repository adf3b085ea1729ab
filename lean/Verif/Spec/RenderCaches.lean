import Verif.Model.RenderCaches
/-!
# Specification: caches
-/
namespace Verif.Spec.RC
open Verif Verif.RCache

variable {K V : Type} [DecidableEq K]

/-- Operations on a cache; the number in `put` resolves the unspecified eviction choice. -/
inductive Op (K V : Type) where
  | put (n : Nat) (k : K) (v : V)
  | clear

/-- Run one operation. -/
def apply (c : Cache K V) : Op K V → Cache K V
  | .put n k v => RCache.insert n k v c
  | .clear => RCache.clear c

/-- The value most recently stored under `k`, if any, ignoring evictions: newest operation last. -/
def latest (k : K) : List (Op K V) → Option V → Option V
  | [], acc => acc
  | .put _ k' v :: l, acc => latest k l (if k' = k then some v else acc)
  | .clear :: l, _ => latest k l none

end Verif.Spec.RC
