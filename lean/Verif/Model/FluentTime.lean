import Verif.Model.EventCmd
/-!
# Moving events in time by the fluent interface — `crates/ass-editor/core/fluent/event_merge_timing.rs`
-/
namespace Verif.FluentTime
open Verif Verif.Doc

/-- `EventTimer`, event_merge_timing.rs lines 52-55, without the document; `new`, lines 57-64: no indices, that is all events. -/
structure Timer where
  indices : List Nat := []
deriving DecidableEq, Repr

/-- `events`, event_merge_timing.rs lines 67-70. -/
def Timer.events (_ : Timer) (is : List Nat) : Timer := ⟨is⟩

/-- `event`, event_merge_timing.rs lines 73-76. -/
def Timer.event (_ : Timer) (i : Nat) : Timer := ⟨[i]⟩

/-- `shift`, event_merge_timing.rs lines 79-83; `n` bounds the loop of the command. -/
def Timer.shift (t : Timer) (off : Int) (n : Nat) (d : Doc) : Option (Outcome Unit × Doc) := EventCmd.timing t.indices off off n d

/-- `shift_start`, event_merge_timing.rs lines 86-90. -/
def Timer.shiftStart (t : Timer) (off : Int) (n : Nat) (d : Doc) : Option (Outcome Unit × Doc) := EventCmd.timing t.indices off 0 n d

/-- `shift_end`, event_merge_timing.rs lines 93-97. -/
def Timer.shiftEnd (t : Timer) (off : Int) (n : Nat) (d : Doc) : Option (Outcome Unit × Doc) := EventCmd.timing t.indices 0 off n d

/-- `adjust`, event_merge_timing.rs lines 107-115. -/
def Timer.adjust (t : Timer) (so eo : Int) (n : Nat) (d : Doc) : Option (Outcome Unit × Doc) := EventCmd.timing t.indices so eo n d

end Verif.FluentTime
