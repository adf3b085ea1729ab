import Verif.Model.Time
import Verif.Model.Override
/-!
# Analysis of dialogue events — `crates/ass-core/analysis/events/{dialogue_info,scoring,utils}`

Arithmetic on `u8` and `u32` that overflows panics (debug builds); times are natural numbers.
-/
namespace Verif.Dialogue
open Verif Verif.Time

/-- The weight of a tag, scoring/calculators.rs lines 43-53. -/
def weight (n : Str) : Nat :=
  if n ∈ ["b".toList, "i".toList, "u".toList, "s".toList, "c".toList, "1c".toList, "2c".toList, "3c".toList,
      "4c".toList, "alpha".toList, "1a".toList, "2a".toList, "3a".toList, "4a".toList] then 1
  else if n ∈ ["frx".toList, "fry".toList, "frz".toList, "fscx".toList, "fscy".toList, "fsp".toList, "fad".toList,
      "fade".toList, "clip".toList, "iclip".toList] then 3
  else if n = "move".toList then 4
  else if n = "t".toList ∨ n = "pbo".toList then 5
  else if n = "p".toList then 8
  else 2

/-- `calculate_animation_score`, scoring/calculators.rs lines 41-56.  The weights are summed up in a `u8` before the
result is capped; as they are positive, some step overflows exactly if the total does not fit. -/
def animationScore (tags : List Override.Tag) : Outcome Nat :=
  let total := (tags.map (fun t => weight t.name)).sum
  if total < 256 then .ok (min total 10) else .panic

/-- `calculate_complexity_score`, scoring/calculators.rs lines 88-112. -/
def complexityScore (animation chars overrides : Nat) : Nat :=
  let c := if chars ≤ 50 then 0 else if chars ≤ 200 then 5 else if chars ≤ 500 then 15 else if chars ≤ 1000 then 30 else 50
  let o := if overrides = 0 then 0 else if overrides ≤ 5 then 5 else if overrides ≤ 15 then 15
    else if overrides ≤ 30 then 25 else 35
  min (min (animation * 5 + c + o) 255) 100

/-- `get_performance_impact`, scoring/impact.rs lines 43-51: the place in the order of `PerformanceImpact`. -/
def impact (score : Nat) : Nat :=
  if score ≤ 20 then 0 else if score ≤ 40 then 1 else if score ≤ 60 then 2 else if score ≤ 80 then 3 else 4

/-- `DialogueInfo`, dialogue_info/mod.rs; the event itself is left out. -/
structure Info where
  start : Nat
  stop : Nat
  animation : Nat
  complexity : Nat
  text : Override.Analysis
deriving DecidableEq, Repr

/-- `DialogueInfo::analyze` (without a registry), dialogue_info/analyze.rs lines 54-59 and 93-130, of an event's start,
end and text. -/
def analyze (st en text : Str) : Outcome Info :=
  match parseAssTime st with
  | .err => .err
  | .overflow => .panic
  | .ok s => match parseAssTime en with
    | .err => .err
    | .overflow => .panic
    | .ok e =>
      if s ≥ e then .err
      else match Override.analyze text with
        | .err => .err
        | .panic => .panic
        | .ok a => match animationScore a.tags with
          | .err => .err
          | .panic => .panic
          | .ok n => .ok ⟨s, e, n, complexityScore n a.plain.length a.tags.length, a⟩

/-- `duration_cs`, accessors.rs lines 24-26. -/
def durationCs (i : Info) : Outcome Nat := if i.stop < i.start then .panic else .ok (i.stop - i.start)

/-- `duration_ms`, accessors.rs lines 18-20. -/
def durationMs (i : Info) : Outcome Nat :=
  if i.stop < i.start then .panic
  else if (i.stop - i.start) * 10 < 2 ^ 32 then .ok ((i.stop - i.start) * 10) else .panic

/-- `TimingRelation`, dialogue_info/mod.rs. -/
inductive Relation where
  | none | partly | full | identical
deriving DecidableEq, Repr

/-- `timing_relation`, accessors.rs lines 66-78. -/
def relation (a b : Info) : Relation :=
  if a.start = b.start ∧ a.stop = b.stop then .identical
  else if a.stop ≤ b.start ∨ b.stop ≤ a.start then .none
  else if (a.start ≤ b.start ∧ a.stop ≥ b.stop) ∨ (b.start ≤ a.start ∧ b.stop ≥ a.stop) then .full
  else .partly

/-- `overlaps_time_range`, accessors.rs lines 82-84. -/
def overlapsRange (i : Info) (s e : Nat) : Bool := !(decide (i.stop ≤ s) || decide (e ≤ i.start))

/-- `find_events_in_range`, utils/ordering.rs lines 70-82, from index `k` on. -/
def findFrom (k : Nat) (s e : Nat) : List Info → List Nat
  | [] => []
  | i :: l => if overlapsRange i s e then k :: findFrom (k + 1) s e l else findFrom (k + 1) s e l

/-- `find_events_in_range`. -/
def findInRange (l : List Info) (s e : Nat) : List Nat := findFrom 0 s e l

/-- `calculate_total_duration`, utils/duration.rs lines 50-59; `none` inside means no events. -/
def totalDuration (l : List Info) : Outcome (Option Nat) :=
  match l with
  | [] => .ok .none
  | i :: t =>
    let start := t.foldl (fun m j => min m j.start) i.start
    let stop := t.foldl (fun m j => max m j.stop) i.stop
    if stop < start then .panic else .ok (some (stop - start))

/-- The sum of the durations in a `u32`, utils/duration.rs line 79. -/
def sumDurations (acc : Nat) : List Info → Outcome Nat
  | [] => .ok acc
  | i :: t => match durationCs i with
    | .ok d => if acc + d < 2 ^ 32 then sumDurations (acc + d) t else .panic
    | .err => .err
    | .panic => .panic

/-- `calculate_average_duration`, utils/duration.rs lines 74-81. -/
def averageDuration (l : List Info) : Outcome (Option Nat) :=
  match l with
  | [] => .ok .none
  | _ => match sumDurations 0 l with
    | .ok s => .ok (some (s / (if l.length < 2 ^ 32 then l.length else 2 ^ 32 - 1)))
    | .err => .err
    | .panic => .panic

/-- The comparison of `sort_events_by_time`, utils/ordering.rs lines 49-52: not greater. -/
def notAfter (a b : Info) : Bool :=
  if a.start = b.start then decide (a.stop ≤ b.stop) else decide (a.start < b.start)

/-- Insert after everything that is not greater. -/
def insertTime (x : Info) : List Info → List Info
  | [] => [x]
  | a :: l => if notAfter a x then a :: insertTime x l else x :: a :: l

/-- `sort_events_by_time`, utils/ordering.rs lines 48-53: `slice::sort_by`, a stable sort (as insertion sort). -/
def sortByTime (l : List Info) : List Info := l.foldl (fun acc x => insertTime x acc) []

end Verif.Dialogue
