import Verif.Model.Bench
import Verif.Spec.Time
import Verif.Spec.EventCmd
/-!
# What a benchmark should report

Only data types are taken from the model.
-/
namespace Verif.Spec.Bench
open Verif Verif.Parser Verif.Ast
open Verif.Bench (Metrics Result)

/-- `f 0 + … + f (n - 1)`. -/
def sum (f : Nat → Rat) : Nat → Rat
  | 0 => 0
  | n + 1 => sum f n + f n

/-- The sum of a list: of its elements by their place. -/
def sumOf (l : List Rat) : Rat := sum (fun k => (l[k]?).getD 0) l.length

/-- The average of the measurements. -/
def Average (l : List Rat) (a : Rat) : Prop := a * (l.length : Rat) = sumOf l

/-- The metrics describe the measurements. -/
def Describes (sqrt : Rat → Rat) (ts : List Rat) (m : Metrics) : Prop :=
  Average ts m.avg ∧ (m.min ∈ ts ∧ ∀ t ∈ ts, m.min ≤ t) ∧ (m.max ∈ ts ∧ ∀ t ∈ ts, t ≤ m.max) ∧
  (∃ v, Average (ts.map fun t => (t - m.avg) * (t - m.avg)) v ∧ m.stdDev = sqrt v) ∧
  (m.avg > 0 → ∃ f, m.fps = some f ∧ f * m.avg = 1000) ∧ (m.avg ≤ 0 → m.fps = none)

/-- How a time is read: nothing readable counts as zero. -/
def ReadAs (s : Str) (v : Nat) : Prop := (TimeText s v ∧ v < 2 ^ 32) ∨ (v = 0 ∧ ∀ u, ¬ TimeText s u)

/-- The text of the event is not blank. -/
def HasText (e : Event) : Prop := ∃ c ∈ e.text, ¬ Verif.Spec.EventCmd.White c

/-- The event is in the script, in one of its sections of events. -/
def InScript (secs : List Section) (e : Event) : Prop := ∃ l span, .events l ∈ secs ∧ (e, span) ∈ l

/-- The first event with text: events of earlier sections come first. -/
def FirstWithText (secs : List Section) (e : Event) : Prop :=
  ∃ a l m n span b, secs = a ++ .events (m ++ (e, span) :: n) :: b ∧ l = m.map (·.1) ∧ HasText e ∧
    (∀ x ∈ l, ¬ HasText x) ∧ ∀ x, InScript a x → ¬ HasText x

end Verif.Spec.Bench
