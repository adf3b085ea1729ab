import Verif.Model.Select
/-!
# Specification: active event selection
-/
namespace Verif.Spec.Sel
open Verif.Select

/-- The event is shown at time `t`: a dialogue line (or a comment when those are rendered) with
`start ≤ t < end`; a time that does not parse counts as 0. -/
def Shown (comments : Bool) (t : Nat) (e : Ev) : Prop :=
  (e.kind = .dialogue ∨ (e.kind = .comment ∧ comments = true)) ∧ e.start.getD 0 ≤ t ∧ t < e.fin.getD 0

instance (c : Bool) (t : Nat) (e : Ev) : Decidable (Shown c t e) :=
  inferInstanceAs (Decidable ((_ ∨ _) ∧ _ ∧ _))

/-- A call on a selector. -/
inductive Call where
  | comments (b : Bool)
  | reset
  | select (script : List Sec) (t : Nat)

/-- State after a call; a call that panics leaves no state. -/
def Call.run (s : Sel) : Call → Option Sel
  | .comments b => some { s with comments := b }
  | .reset => some { s with prev := [], last := none }
  | .select script t => (Verif.Select.select s script t).map (·.2)

/-- State after a history. -/
def runAll (s : Sel) : List Call → Option Sel
  | [] => some s
  | c :: cs => (c.run s).bind (fun s' => runAll s' cs)

/-- The events sections a history has shown to the selector. -/
def seen : List Call → List (Nat × List Ev)
  | [] => []
  | .select script _ :: cs => (firstEvents script).toList ++ seen cs
  | _ :: cs => seen cs

/-- Address and length identify the contents: no two sections shown at the same address with the same
length differ. -/
def Faithful (l : List (Nat × List Ev)) : Prop :=
  ∀ p ∈ l, ∀ q ∈ l, p.1 = q.1 → p.2.length = q.2.length → p.2 = q.2

end Verif.Spec.Sel
