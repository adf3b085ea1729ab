import Verif.Model.StrX
/-!
# The validation of benchmark results — `crates/ass-core/bin/validate_bench_results.rs` and `validate_bench_results/{loader,types,validate}.rs`

Numbers are exact (`f64` in the code); how a number is read from its text is a parameter.  The texts of the messages are not modelled: a message is the name
of the benchmark it is about.
-/
namespace Verif.BenchValid
open Verif

/-- `BenchmarkResult`, types.rs lines 25-35. -/
structure Result where
  name : Str
  ns : Rat
  throughput : Option Rat
  memory : Option Nat

/-- `extract_json_string`, loader.rs lines 58-67, of the pattern made from its key. -/
def jsonString (pat line : Str) : Option Str :=
  match splitOnceStr pat line with
  | none => none
  | some (_, r) =>
    match splitOnce '"' r with
    | none => none
    | some (s, _) => some s

/-- `extract_json_number`, loader.rs lines 70-82, of the pattern made from its key. -/
def jsonNumber (parse : Str → Option Rat) (pat line : Str) : Option Rat :=
  match splitOnceStr pat line with
  | none => none
  | some (_, r) => parse (trim (r.takeWhile fun x => x ≠ ',' && x ≠ '}'))

/-- `parse_benchmark_line`, loader.rs lines 44-55. -/
def parseLine (parse : Str → Option Rat) (line : Str) : Option Result :=
  match jsonString "\"id\":\"".toList line with
  | none => none
  | some n =>
    match jsonNumber parse "\"estimate\":".toList line with
    | none => none
    | some v => some ⟨n, v * 1000000, none, none⟩

/-- `load_benchmark_results`, loader.rs lines 17-41, of the lines of a file that can be read. -/
def load (parse : Str → Option Rat) (ls : List Str) : List Result :=
  ls.filterMap fun l => if containsStr "\"benchmark\"".toList l && containsStr "\"mean\"".toList l then parseLine parse l else none

/-- `ValidationResults`, types.rs lines 38-57. -/
structure Verdict where
  passed : List Str := []
  failed : List Str := []
  warnings : List Str := []
deriving DecidableEq, Repr

/-- `add_pass`, `add_fail`, types.rs lines 59-67, as they are chosen by a comparison. -/
def Verdict.add (v : Verdict) (ok : Bool) (n : Str) : Verdict :=
  if ok then { v with passed := v.passed ++ [n] } else { v with failed := v.failed ++ [n] }

/-- The limit, validate.rs lines 23-36; 5 is `max_incremental_time_ms`, types.rs line 18. -/
def limit (n : Str) : Rat :=
  if containsStr "large_scale_anime".toList n then
    if containsStr "bdmv_full".toList n then 50
    else if containsStr "ova_complex".toList n then 25
    else if containsStr "movie_2hr".toList n then 15
    else 10
  else 5

/-- The body of `validate_incremental_performance`, validate.rs lines 18-67. -/
def incrementalOne (v : Verdict) (r : Result) : Verdict :=
  let ms := r.ns / 1000000
  let v := if containsStr "incremental".toList r.name then v.add (ms ≤ limit r.name) r.name else v
  if containsStr "editor_simulation".toList r.name then v.add (ms ≤ 5 * 2) r.name else v

/-- The body of `validate_parser_performance`, validate.rs lines 78-115. -/
def parserOne (v : Verdict) (r : Result) : Verdict :=
  let ms := r.ns / 1000000
  let v := if containsStr "parsing".toList r.name && !containsStr "incremental".toList r.name then
      if ms ≤ 50 then { v with passed := v.passed ++ [r.name] } else { v with warnings := v.warnings ++ [r.name] }
    else v
  match r.memory, r.throughput with
  | some m, some t => v.add (m / (t / 1000) ≤ 11 / 10) r.name
  | _, _ => v

/-- `main`, validate_bench_results.rs lines 38-57, called with two paths; `none`: the file cannot be read. -/
def validate (parse : Str → Option Rat) (parserFile incFile : Option (List Str)) : Verdict :=
  let v := match incFile with
    | some l => (load parse l).foldl incrementalOne {}
    | none => { failed := ["Failed to load incremental results".toList] }
  match parserFile with
  | some l => (load parse l).foldl parserOne v
  | none => { v with failed := v.failed ++ ["Failed to load parser results".toList] }

/-- `is_success`, types.rs lines 103-105. -/
def Verdict.isSuccess (v : Verdict) : Bool := v.failed.isEmpty

end Verif.BenchValid
