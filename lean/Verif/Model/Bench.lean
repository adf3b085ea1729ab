import Verif.Model.Parser
import Verif.Model.Time
import Verif.Model.Outcome
/-!
# Benchmarks

`PerformanceBenchmark` (crates/ass-renderer/src/debug/benchmarking/mod.rs, animation.rs, report.rs, types.rs).  `f64` is
modelled by exact rationals, the square root is a parameter.  The renderer and the clock are one parameter: how long a call
takes, or that it fails.  No memory is measured (mod.rs lines 194-207 always answer `None`), but the statistics are modelled
for any measurements.  Arithmetic in `u32` is checked, as in a debug build: an overflow panics.
-/
namespace Verif.Bench
open Verif Verif.Parser Verif.Ast

/-- `BenchmarkConfig`, types.rs lines 10-23, the fields that are used. -/
structure Config where
  iterations : Nat
  warmup : Nat
  frameRate : Bool
  resolutions : List (Nat × Nat)
  duration : Nat
  deriving DecidableEq, Repr

/-- `PerformanceMetrics`, types.rs lines 61-78, without the rate of cache hits (always `None`). -/
structure Metrics where
  avg : Rat
  min : Rat
  max : Rat
  stdDev : Rat
  fps : Option Rat
  peakMem : Option Nat
  avgMem : Option Nat
  deriving DecidableEq, Repr

/-- `iter().sum::<f64>()`. -/
def total : List Rat → Rat
  | [] => 0
  | x :: l => x + total l

/-- `fold(f64::INFINITY, |a, &b| a.min(b))`; `none` stands for infinity. -/
def least : List Rat → Option Rat → Option Rat
  | [], a => a
  | x :: l, none => least l (some x)
  | x :: l, some a => least l (some (if x < a then x else a))

/-- `fold(f64::NEG_INFINITY, |a, &b| a.max(b))`. -/
def greatest : List Rat → Option Rat → Option Rat
  | [], a => a
  | x :: l, none => greatest l (some x)
  | x :: l, some a => greatest l (some (if a < x then x else a))

/-- `memory_usage.iter().max()`. -/
def peak : List Nat → Option Nat
  | [] => none
  | x :: l => some (l.foldl Nat.max x)

/-- `calculate_performance_metrics`, mod.rs lines 140-191. -/
def metrics (sqrt : Rat → Rat) (times : List Rat) (mem : List Nat) : Outcome Metrics :=
  match least times none, greatest times none with
  | some lo, some hi =>
    let avg := total times / (times.length : Rat)
    let variance := total (times.map fun t => (t - avg) * (t - avg)) / (times.length : Rat)
    .ok ⟨avg, lo, hi, sqrt variance, if avg > 0 then some (1000 / avg) else none, peak mem,
      if mem = [] then none else some (mem.sum / mem.length)⟩
  | _, _ => .err

/-- `start_time_cs().unwrap_or(0)`. -/
def timeOr0 (s : Str) : Outcome Nat :=
  match Time.parseAssTime s with
  | .ok v => .ok v
  | .err => .ok 0
  | .overflow => .panic

/-- The events of all sections, in the order of the script. -/
def allEvents : List Section → List Event
  | [] => []
  | .events l :: r => l.map (·.1) ++ allEvents r
  | _ :: r => allEvents r

/-- The search of `find_representative_time`, mod.rs lines 214-220. -/
def moment : List Event → Outcome Nat
  | [] => .ok 100
  | e :: l =>
    if trim e.text = [] then moment l
    else match timeOr0 e.start, timeOr0 e.stop with
      | .ok s, .ok t => if t < s then .panic else .ok (s + (t - s) / 2)
      | _, _ => .panic

/-- `find_representative_time`, mod.rs lines 210-224. -/
def representative (secs : List Section) : Outcome Nat := moment (allEvents secs)

/-- `BenchmarkResult`, types.rs lines 44-57, without the memory ratio (always `None`). -/
structure Result where
  name : Str
  resolution : Nat × Nat
  perf : Metrics
  ratio : Option Rat
  score : Rat
  deriving DecidableEq, Repr

/-- The renderer with a resolution: how long its `n`-th call takes, for a time, or that it fails. -/
abbrev Renderer := Nat × Nat → Nat → Nat → Option Rat

/-- Calls of the renderer from number `k` on; the measured times, or a failure. -/
def calls (r : Nat → Option Rat) : Nat → Nat → Option (List Rat)
  | _, 0 => some []
  | k, n + 1 => match r k with
    | none => none
    | some t => (calls r (k + 1) n).map (t :: ·)

/-- `benchmark_our_renderer`, mod.rs lines 100-137. -/
def measure (sqrt : Rat → Rat) (c : Config) (r : Nat → Option Rat) : Outcome Metrics :=
  match calls r 0 c.warmup with
  | none => .err
  | some _ => match calls r c.warmup c.iterations with
    | none => .err
    | some ts => metrics sqrt ts []

/-- `format!("{test_name}_{}_{}x{}", "single", …)`, mod.rs line 90. -/
def label (name : Str) (res : Nat × Nat) : Str :=
  name ++ "_single_".toList ++ showNat res.1 ++ 'x' :: showNat res.2

/-- `benchmark_single_resolution`, mod.rs lines 72-97. -/
def single (sqrt : Rat → Rat) (r : Renderer) (c : Config) (secs : List Section) (name : Str) (res : Nat × Nat) : Outcome Result :=
  match representative secs with
  | .panic => .panic
  | .err => .err
  | .ok t => match measure sqrt c (r res t) with
    | .panic => .panic
    | .err => .err
    | .ok m => .ok ⟨label name res, res, m, none, 95 / 100⟩

/-- The loop of `benchmark_script`, mod.rs lines 51-63. -/
def each (sqrt : Rat → Rat) (r : Renderer) (c : Config) (secs : List Section) (name : Str) : List (Nat × Nat) → Outcome (List Result)
  | [] => .ok []
  | res :: l => match single sqrt r c secs name res with
    | .panic => .panic
    | .err => .err
    | .ok x => match each sqrt r c secs name l with
      | .panic => .panic
      | .err => .err
      | .ok xs => .ok (x :: xs)

/-- `benchmark_script`, mod.rs lines 43-69: the answer and the stored results. -/
def script (sqrt : Rat → Rat) (r : Renderer) (c : Config) (secs : List Section) (name : Str) (history : List Result) :
    Outcome (List Result) × List Result :=
  match each sqrt r c secs name c.resolutions with
  | .ok xs => (.ok xs, history ++ xs)
  | o => (o, history)

/-- `quick_benchmark`, mod.rs lines 228-244. -/
def quick (sqrt : Rat → Rat) (r : Renderer) (secs : List Section) (name : Str) : Outcome Result :=
  match (script sqrt r ⟨5, 1, true, [(1920, 1080)], 1000⟩ secs name []).1 with
  | .ok (x :: _) => .ok x
  | .ok [] => .err
  | .err => .err
  | .panic => .panic

/-! ## Animations -/

/-- The loop of `find_animation_timerange`, animation.rs lines 104-109. -/
def extent : List Event → Nat × Nat → Outcome (Nat × Nat)
  | [], m => .ok m
  | e :: l, m => match timeOr0 e.start, timeOr0 e.stop with
    | .ok s, .ok t => extent l (min m.1 s, max m.2 t)
    | _, _ => .panic

/-- `find_animation_timerange`, animation.rs lines 98-119. -/
def timerange (secs : List Section) (duration : Nat) : Outcome (Nat × Nat) :=
  match extent (allEvents secs) (4294967295, 0) with
  | .ok (lo, hi) =>
    if lo = 4294967295 then .ok (0, duration)
    else if hi < lo then .panic
    else .ok (lo, lo + min (hi - lo) duration)
  | .err => .err
  | .panic => .panic

/-- The times at which `benchmark_animation_framerate` renders, animation.rs lines 27 and 36-37. -/
def frameTimes (lo hi : Nat) : List Nat := (List.range ((hi - lo) / 4)).map fun k => lo + k * 4

/-- Average frame time and frames per second of an animation, animation.rs lines 57-58; `none` is not a number. -/
def pace (ts : List Rat) : Option Rat × Option Rat :=
  if ts = [] then (none, none)
  else
    let avg := total ts / (ts.length : Rat)
    (some avg, if avg = 0 then none else some (1000 / avg))

/-! ## The summary -/

/-- `PerformanceSummary`, types.rs lines 91-104. -/
structure Summary where
  tests : Nat
  ratio : Rat
  score : Rat
  fps : Rat
  fastest : Option Str
  slowest : Option Str
  deriving DecidableEq, Repr

/-- `min_by`: the first of the least, report.rs lines 63-73. -/
def fastest : List Result → Option Result
  | [] => none
  | x :: l => some (l.foldl (fun a b => if b.perf.avg < a.perf.avg then b else a) x)

/-- `max_by`: the last of the greatest, report.rs lines 76-86. -/
def slowest : List Result → Option Result
  | [] => none
  | x :: l => some (l.foldl (fun a b => if b.perf.avg < a.perf.avg then a else b) x)

/-- `calculate_performance_summary`, report.rs lines 20-60. -/
def summary (h : List Result) : Summary :=
  if h = [] then ⟨0, 1, 1, 0, none, none⟩
  else
    let ratios := h.filterMap (·.ratio)
    ⟨h.length, if ratios = [] then 1 else total ratios / (ratios.length : Rat), total (h.map (·.score)) / (h.length : Rat),
      total (h.filterMap (·.perf.fps)) / (h.length : Rat), (fastest h).map (·.name), (slowest h).map (·.name)⟩

end Verif.Bench
