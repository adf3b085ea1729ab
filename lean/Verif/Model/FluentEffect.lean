import Verif.Model.EventCmd
/-!
# Effects by the fluent interface — `crates/ass-editor/core/fluent/event_toggle_effect.rs`
-/
namespace Verif.FluentEffect
open Verif Verif.Doc

/-- `EventEffector`, event_toggle_effect.rs lines 45-48, without the document; `new`, lines 52-57: no indices, that is all events. -/
structure Effector where
  indices : List Nat := []
deriving DecidableEq, Repr

/-- `events`, event_toggle_effect.rs lines 60-63. -/
def Effector.events (_ : Effector) (is : List Nat) : Effector := ⟨is⟩

/-- `event`, event_toggle_effect.rs lines 66-69. -/
def Effector.event (_ : Effector) (i : Nat) : Effector := ⟨[i]⟩

/-- `set`, event_toggle_effect.rs lines 72-76; `n` bounds the loop of the command. -/
def Effector.set (t : Effector) (e : Str) (n : Nat) (d : Doc) : Option (Outcome Unit × Doc) := EventCmd.effect t.indices .set e n d

/-- `clear`, event_toggle_effect.rs lines 79-83. -/
def Effector.clear (t : Effector) (n : Nat) (d : Doc) : Option (Outcome Unit × Doc) := EventCmd.effect t.indices .clear [] n d

/-- `append`, event_toggle_effect.rs lines 86-90. -/
def Effector.append (t : Effector) (e : Str) (n : Nat) (d : Doc) : Option (Outcome Unit × Doc) := EventCmd.effect t.indices .append e n d

/-- `prepend`, event_toggle_effect.rs lines 93-101. -/
def Effector.prepend (t : Effector) (e : Str) (n : Nat) (d : Doc) : Option (Outcome Unit × Doc) := EventCmd.effect t.indices .prepend e n d

end Verif.FluentEffect
