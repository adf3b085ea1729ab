/-!
# Finite maps

`HashMap`/`BTreeMap` as association lists with one entry per key (newest first).  Iteration
order is not observable in anything modelled with this type.
-/
namespace Verif

/-- A finite map. -/
abbrev Map (K V : Type) := List (K × V)

namespace Map
variable {K V : Type} [DecidableEq K]

/-- `HashMap::get`. -/
def get (m : Map K V) (k : K) : Option V :=
  match m with
  | [] => none
  | (k', v) :: t => if k' = k then some v else get t k

/-- `HashMap::contains_key`. -/
def has (m : Map K V) (k : K) : Bool := (get m k).isSome

/-- `HashMap::remove` (the map afterwards). -/
def erase (m : Map K V) (k : K) : Map K V := m.filter (fun p => p.1 ≠ k)

/-- `HashMap::insert`. -/
def insert (m : Map K V) (k : K) (v : V) : Map K V := (k, v) :: erase m k

/-- One entry per key. -/
def WF (m : Map K V) : Prop := (m.map (·.1)).Nodup

end Map
end Verif
