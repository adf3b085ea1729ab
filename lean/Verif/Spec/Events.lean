import Verif.Model.Events
/-!
# Specification: event channel histories
-/
namespace Verif.Spec.Ev
open Verif Verif.Events

/-- A call on the channel. -/
inductive Call where
  | register (filter : Filter) (prio : Int) (fails : Ev → Bool)
  | unregister (id : Nat)
  | clear
  | dispatch (e : Ev)

/-- The id returned by a call, if it was a successful registration, and the state afterwards. -/
def Call.run (c : Channel) : Call → Option Nat × Channel
  | .register f p x => Events.register c f p x
  | .unregister id => (none, (Events.unregister c id).2)
  | .clear => (none, Events.clear c)
  | .dispatch e => (none, (Events.dispatch c e).2.2)

/-- State after a history on a fresh channel. -/
def after (n : Nat) (cs : List Call) : Channel := cs.foldl (fun c x => (x.run c).2) (Channel.new n)

/-- Ids handed out from a state on, in order. -/
def idsFrom (c : Channel) : List Call → List Nat
  | [] => []
  | x :: xs => (x.run c).1.toList ++ idsFrom (x.run c).2 xs

/-- `a` is served before `b`: higher priority, or same priority and registered earlier. -/
def Before (a b : Handler) : Prop := b.prio < a.prio ∨ (a.prio = b.prio ∧ a.id < b.id)

/-- A filter accepts an event, in words: its type is not excluded; if there is an include list its
type is on it; and the modification and cursor conditions hold when given. -/
structure Accepts (f : Filter) (e : Ev) : Prop where
  notExcluded : e.typeName ∉ f.excludeTypes
  included : f.includeTypes = [] ∨ e.typeName ∈ f.includeTypes
  mods : ∀ b, f.includeMods = some b → e.isMod = b
  cursor : ∀ b, f.includeCursor = some b → e.isCursor = b

end Verif.Spec.Ev
