import Verif.Model.Dialogue
/-!
# Specification: when events are shown
-/
namespace Verif.Spec.Dialogue
open Verif.Dialogue

/-- The event is shown at the instant `t` (centiseconds): from its start on, until before its end. -/
def Shown (i : Info) (t : Nat) : Prop := i.start ≤ t ∧ t < i.stop

/-- The event is shown at some time. -/
def Proper (i : Info) : Prop := i.start < i.stop

/-- `a` is shown whenever `b` is. -/
def Covers (a b : Info) : Prop := ∀ t, Shown b t → Shown a t

/-- The two are shown together at some time. -/
def Meet (a b : Info) : Prop := ∃ t, Shown a t ∧ Shown b t

/-- Earlier start, or same start and not later end. -/
def InOrder (a b : Info) : Prop := a.start < b.start ∨ (a.start = b.start ∧ a.stop ≤ b.stop)

/-- Same times. -/
def SameTimes (a b : Info) : Prop := a.start = b.start ∧ a.stop = b.stop

end Verif.Spec.Dialogue
