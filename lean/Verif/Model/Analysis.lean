import Verif.Model.Lint
import Verif.Model.Overlap
import Verif.Model.Resolved
/-!
# The analysis of a whole script — `crates/ass-core/analysis/{construction,queries,mod}.rs`

Without a registry of plugins.  `str::parse::<f32>` is the parameter `num`, as in `Resolved`; `child` as in `Lint`.
-/
namespace Verif.Analysis
open Verif
open Verif.Parser (Section)
open Verif.Ast (Style)
open Verif.Resolved (Look)

/-- `ScriptAnalysis`, mod.rs lines 96-115. -/
structure Analysis where
  issues : List Lint.Issue
  looks : List Look
  infos : List Dialogue.Info

/-- `run_linting`, construction.rs lines 119-146 (`strict_mode` is not read by any rule). -/
def runLinting (num : Str → Option Rat) (child : Style → Bool) (secs : List Section) (inf : List Dialogue.Info) :
    Outcome (List Lint.Issue) :=
  Lint.runLoop Lint.Config.default [] (Lint.allRules (fun s => (Resolved.fromStyle num s).isSome) child secs inf)

/-- `analyze_impl`, construction.rs lines 79-98: styles (lines 149-152), events (lines 155-177), linting. -/
def analyze (num : Str → Option Rat) (child : Style → Bool) (secs : List Section) : Outcome Analysis :=
  match Resolved.resolved num secs, Lint.infos (Lint.firstEvents secs) with
  | some m, .ok inf => (match runLinting num child secs inf with
    | .ok l => .ok ⟨l, m.map (·.2), inf⟩
    | .err => .err
    | .panic => .panic)
  | none, _ => .err
  | _, .err => .err
  | _, .panic => .panic

/-- `resolve_style`, queries.rs lines 39-41. -/
def resolveStyle (a : Analysis) (name : Str) : Option Look := a.looks.find? (fun r => r.name = name)

/-- `has_critical_issues`, queries.rs lines 45-49. -/
def hasCritical (a : Analysis) : Bool := a.issues.any (fun i => i.severity = .critical)

/-- `count_overlapping_dialogue_events`, events/utils/overlaps.rs lines 42-62; the times of analysed events are readable. -/
def overlapping (a : Analysis) : Nat := ((Overlap.findOverlaps (a.infos.map (fun i => some (i.start, i.stop)))).getD []).length

/-- `count_complex_animations`, queries.rs lines 69-74. -/
def complexAnimations (a : Analysis) : Nat := (a.infos.filter (fun i => i.animation > 3)).length

/-- `count_large_fonts`, queries.rs lines 77-82. -/
def largeFonts (a : Analysis) : Nat := (a.looks.filter (fun r => r.fontSize > 72)).length

/-- `calculate_performance_score`, queries.rs lines 85-114. -/
def score (events overlaps animations fonts : Nat) : Nat :=
  let s := 100
  let s := if events > 1000 then s - 20 else if events > 500 then s - 10 else s
  let s := if overlaps > 50 then s - 15 else if overlaps > 20 then s - 8 else s
  let s := if animations > 100 then s - 10 else if animations > 50 then s - 5 else s
  if fonts > 10 then s - 5 else s

/-- `PerformanceSummary`, mod.rs lines 140-155. -/
structure Summary where
  events : Nat
  overlaps : Nat
  animations : Nat
  fonts : Nat
  score : Nat
deriving DecidableEq, Repr

/-- `performance_summary`, queries.rs lines 53-61. -/
def summary (a : Analysis) : Summary :=
  ⟨a.infos.length, overlapping a, complexAnimations a, largeFonts a,
    score a.infos.length (overlapping a) (complexAnimations a) (largeFonts a)⟩

/-- `has_performance_issues`, mod.rs lines 160-162. -/
def hasIssues (s : Summary) : Bool := s.score < 80

/-- The pieces of advice. -/
inductive Advice where
  | overlaps | animations | fonts | split
deriving DecidableEq, Repr

/-- `recommendation`, mod.rs lines 166-178. -/
def recommendation (s : Summary) : Option Advice :=
  if s.overlaps > 10 then some .overlaps
  else if s.animations > 20 then some .animations
  else if s.fonts > 5 then some .fonts
  else if s.events > 1000 then some .split
  else none

end Verif.Analysis
