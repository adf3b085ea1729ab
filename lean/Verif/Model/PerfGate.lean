import Verif.Model.StrX
/-!
# The check of benchmark results — `crates/ass-core/bin/check_perf_regression.rs` and `check_perf_regression/{analysis,loading,types}.rs`

Numbers are exact (`f64` in the code); how a number is read from its text is a parameter.  The texts of the messages are not modelled: a message is the name
and the number it is about.  Maps are lists, in the order of the directory; the names in a directory differ, so nothing is overwritten.
-/
namespace Verif.PerfGate
open Verif

/-- An entry of the directory: its name, whether it is a directory, and the lines of `base/estimates.json` and `change/estimates.json` in it, if they can
be read. -/
structure Entry where
  name : Str
  isDir : Bool
  base : Option (List Str)
  change : Option (List Str)
deriving DecidableEq, Repr

/-- The key of the number. -/
def point : Str := "\"point_estimate\":".toList

/-- `extract_mean_estimate` up to the reading of the number, loading.rs lines 70-91, and the same in `load_change_estimate`, lines 126-134. -/
def estimate (key content : Str) : Option Str :=
  match splitOnceStr key content with
  | none => none
  | some (_, b) =>
    match splitOnceStr point (key ++ b) with
    | none => none
    | some (_, c) => some (c.takeWhile fun x => x ≠ ',' && x ≠ '}')

/-- `load_estimates_file` and `extract_mean_estimate`, loading.rs lines 49-91: the lines are put together without line breaks. -/
def loadBase (parse : Str → Option Rat) (l : List Str) : Option Rat :=
  match estimate "\"mean\":{".toList l.flatten with
  | none => none
  | some s => parse s

/-- `load_change_estimate`, loading.rs lines 117-149: in percent. -/
def loadChange (parse : Str → Option Rat) (l : List Str) : Option Rat :=
  match estimate "\"difference\":{".toList l.flatten with
  | none => none
  | some s => (parse s).map (· * 100)

/-- `load_criterion_results`, loading.rs lines 19-46, of a directory that exists: what cannot be loaded is left out. -/
def results (parse : Str → Option Rat) (es : List Entry) : List (Str × Rat) :=
  es.filterMap fun e => if e.isDir then (e.base.bind (loadBase parse)).map (e.name, ·) else none

/-- `load_comparison_data`, loading.rs lines 94-114. -/
def comparisons (parse : Str → Option Rat) (es : List Entry) : List (Str × Rat) :=
  es.filterMap fun e => if e.isDir then (e.change.bind (loadChange parse)).map (e.name, ·) else none

/-- `RegressionAnalysis`, types.rs lines 26-36. -/
structure Analysis where
  regressions : List (Str × Rat) := []
  improvements : List (Str × Rat) := []
  within : List (Str × Rat) := []
  targets : List (Str × Rat) := []

/-- `analyze_performance_targets`, analysis.rs lines 19-39. -/
def analyzeTargets (rs : List (Str × Rat)) (a : Analysis) : Analysis :=
  rs.foldl (fun a r =>
    let ms := r.2 / 1000000
    if containsStr "incremental".toList r.1 then
      if ms > 5 then { a with targets := a.targets ++ [(r.1, ms)] } else { a with within := a.within ++ [(r.1, ms)] }
    else a) a

/-- `f64::abs`. -/
def abs (x : Rat) : Rat := if x < 0 then -x else x

/-- `analyze_regressions`, analysis.rs lines 42-64. -/
def analyzeRegressions (cs : List (Str × Rat)) (a : Analysis) : Analysis :=
  cs.foldl (fun a c =>
    if abs c.2 > 10 then
      if c.2 > 0 then { a with regressions := a.regressions ++ [c] } else { a with improvements := a.improvements ++ [(c.1, abs c.2)] }
    else { a with within := a.within ++ [c] }) a

/-- `has_failures`, types.rs lines 50-52. -/
def Analysis.hasFailures (a : Analysis) : Bool := !a.regressions.isEmpty || !a.targets.isEmpty

/-- `main`, check_perf_regression.rs lines 21-53, called with one argument; `none`: the directory cannot be read.  Whether it ends with success. -/
def gate (parse : Str → Option Rat) (dir : Option (List Entry)) : Bool :=
  match dir with
  | none => false
  | some es => !(analyzeRegressions (comparisons parse es) (analyzeTargets (results parse es) {})).hasFailures

end Verif.PerfGate
