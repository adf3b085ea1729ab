import Verif.Model.Sessions
/-!
# Specification: session manager histories
-/
namespace Verif.Spec.Sess
open Verif Verif.Sessions

variable {D : Type}

/-- A call on the session manager. -/
inductive Call (D : Type) where
  | create (id : Str) (doc : D)
  | switch (id : Str)
  | remove (id : Str)
  | modify (id : Str) (f : D → Bool × D)
  | cleanup (stale : Str → Bool)

/-- State after a call. -/
def Call.run (m : Mgr D) : Call D → Mgr D
  | .create id doc => (Sessions.create m id doc).2
  | .switch id => (Sessions.switch m id).2
  | .remove id => (Sessions.remove m id).2
  | .modify id f => (Sessions.modify m id f).2
  | .cleanup stale => Sessions.cleanup m stale

/-- State after a sequence of calls on a fresh manager. -/
def after (maxSessions : Nat) (auto : Bool) (cs : List (Call D)) : Mgr D :=
  cs.foldl Call.run (Sessions.new maxSessions auto)

/-- The document of a session. -/
def docOf (m : Mgr D) (id : Str) : Option D := (m.sessions.get id).map (·.1)

/-- The number of operations reported for a session. -/
def opsOf (m : Mgr D) (id : Str) : Option Nat := (m.sessions.get id).map (·.2)

/-- The call is directed at session `id` (clean-up is directed at the stale ones). -/
def Call.Touches : Call D → Str → Prop
  | .create i _, id => i = id
  | .switch _, _ => False
  | .remove i, id => i = id
  | .modify i _, id => i = id
  | .cleanup stale, id => stale id = true

end Verif.Spec.Sess
