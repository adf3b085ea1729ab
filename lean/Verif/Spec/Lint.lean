import Verif.Spec.Time
import Verif.Model.Lint
/-!
# Specification: linting and validation

Of the model only data types are used: events, styles, issues, configurations.
-/
namespace Verif.Spec.Lint
open Verif.Lint (Issue Severity Config VIssue Level)
open Verif.Ast (Event Style)

/-- `out` lists, in order, one issue for each element of `l` that has the property, and nothing else. -/
inductive Reports {α : Type} (P : α → Prop) (mk : α → Issue) : List α → List Issue → Prop
  | nil : Reports P mk [] []
  | yes (e l out) (h : P e) (hs : Reports P mk l out) : Reports P mk (e :: l) (mk e :: out)
  | no (e l out) (h : ¬ P e) (hs : Reports P mk l out) : Reports P mk (e :: l) out

/-- The event's times are readable and it does not end after its start. -/
def NoDuration (e : Event) : Prop := ∃ s t, TimeText e.start s ∧ TimeText e.stop t ∧ t ≤ s

/-- The times, if they can be read, fit 32 bits. -/
def FitTimes (e : Event) : Prop := (∀ s, TimeText e.start s → s < 2 ^ 32) ∧ ∀ t, TimeText e.stop t → t < 2 ^ 32

/-- The events of the first section of events. -/
def FirstEvents (secs : List Verif.Parser.Section) (ev : List Event) : Prop :=
  ∃ pre l post, secs = pre ++ .events l :: post ∧ (∀ s ∈ pre, ∀ m, s ≠ .events m) ∧ ev = l.map (·.1)

/-- The styles of the first section of styles. -/
def FirstStyles (secs : List Verif.Parser.Section) (st : List Style) : Prop :=
  ∃ pre l post, secs = pre ++ .styles l :: post ∧ (∀ s ∈ pre, ∀ m, s ≠ .styles m) ∧ st = l.map (·.1)

/-- The issues of one rule. -/
def ofRule (rule : List Char) (l : List Issue) : List Issue := l.filter (fun i => i.rule = rule)

/-- The colours of a style, by the names used in messages. -/
def colours (s : Style) : List (List Char × List Char) :=
  [("primary".toList, s.primary), ("secondary".toList, s.secondary), ("outline".toList, s.outlineColour), ("back".toList, s.back)]

/-- The warning about two events that are shown together. -/
def overlapOf (ev : List Event) (p : Nat × Nat) : Option Issue :=
  match ev[p.1]?, ev[p.2]? with
  | some a, some b => some ⟨.warning, "timing-overlap".toList, .overlap a.start a.stop b.start b.stop⟩
  | _, _ => none

/-- A control character: below U+0020, or from U+007F to U+009F. -/
def Control (c : Char) : Prop := c.toNat < 32 ∨ (127 ≤ c.toNat ∧ c.toNat < 160)

/-- The rule is to run: it is not switched off, and it is among the chosen ones if there are any. -/
def Runs (c : Config) (rule : List Char) : Prop := rule ∉ c.disabled ∧ (c.enabled = [] ∨ rule ∈ c.enabled)

/-- The order of severities. -/
def severityNumber : Severity → Nat
  | .info => 0
  | .hint => 1
  | .warning => 2
  | .error => 3
  | .critical => 4

/-- The configuration lets the issue through. -/
def Allowed (c : Config) (i : Issue) : Prop := Runs c i.rule ∧ severityNumber c.minSeverity ≤ severityNumber i.severity

instance (c : Config) (i : Issue) : Decidable (Allowed c i) := by unfold Allowed Runs; infer_instance

/-- The first `n`, or all if `n` is 0. -/
def limited {α : Type} (n : Nat) (l : List α) : List α := if n = 0 then l else l.take n

/-- An error, or worse. -/
def Bad (s : Severity) : Prop := s = .error ∨ s = .critical

instance (s : Severity) : Decidable (Bad s) := by unfold Bad; infer_instance

/-- The order of levels. -/
def levelNumber : Level → Nat
  | .info => 0
  | .warning => 1
  | .error => 2
  | .critical => 3

end Verif.Spec.Lint
