import Verif.Model.Sort
/-!
# Overlap detection — `crates/ass-core/analysis/events/overlap/{detection,sweep}.rs`

Events are given by their start and end time; a pair that does not parse is `none` (parsing itself is
C01/C02).
-/
namespace Verif.Overlap

/-- `SweepEvent`, sweep.rs lines 11-27. -/
inductive Sweep where
  | start (time idx : Nat)
  | fin (time idx : Nat)
deriving DecidableEq

/-- `Ord for SweepEvent`, sweep.rs lines 43-54: by time, ends before starts, otherwise equal. -/
def Sweep.key : Sweep → Nat
  | .start t _ => 2 * t + 1
  | .fin t _ => 2 * t

/-- detection.rs lines 29-45: a start and an end per event, counting from `i`; `none` is the error. -/
def sweeps : Nat → List (Option (Nat × Nat)) → Option (List Sweep)
  | _, [] => some []
  | _, none :: _ => none
  | i, some (s, e) :: l => (sweeps (i + 1) l).map (fun r => .start s i :: .fin e i :: r)

/-- detection.rs lines 52-69. -/
def step (st : List Nat × List (Nat × Nat)) : Sweep → List Nat × List (Nat × Nat)
  | .start _ i => (st.1 ++ [i], st.2 ++ st.1.map (fun a => (a, i)))
  | .fin _ i => (st.1.erase i, st.2)

/-- `find_overlaps_generic`, detection.rs lines 20-72. -/
def findOverlaps (times : List (Option (Nat × Nat))) : Option (List (Nat × Nat)) :=
  if times.length < 2 then some []
  else (sweeps 0 times).map (fun l => ((sortKey Sweep.key l).foldl step ([], [])).2)

end Verif.Overlap
