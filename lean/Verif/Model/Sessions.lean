import Verif.Model.Map
import Verif.Model.Str
/-!
# Session manager — `crates/ass-editor/sessions/{lifecycle,access,session}.rs`

Documents are an arbitrary type `D`.  Each method runs under the manager's lock or `RefCell`
borrow from start to end, so calls are atomic steps.  Time stamps, the arena and metadata are left
out; `memory_usage` is only ever 0 (session.rs line 49), so the subtraction on
lifecycle.rs line 102 is dropped.
-/
namespace Verif.Sessions
open Verif

/-- `EditorSessionManagerInner`, manager.rs lines 41-65. -/
structure Mgr (D : Type) where
  maxSessions : Nat
  autoCleanup : Bool
  sessions : Map Str (D × Nat)
  active : Option Str
  activeCount : Nat

variable {D : Type}

/-- `EditorSessionManagerInner::new`, manager.rs lines 115-133. -/
def new (maxSessions : Nat) (autoCleanup : Bool) : Mgr D := ⟨maxSessions, autoCleanup, [], none, 0⟩

/-- `create_session_with_document`, lifecycle.rs lines 29-59; the flag says whether it succeeded. -/
def create (m : Mgr D) (id : Str) (doc : D) : Bool × Mgr D :=
  if m.sessions.length ≥ m.maxSessions then (false, m)
  else (true, { m with
    sessions := m.sessions.insert id (doc, 0)
    activeCount := m.activeCount + 1
    active := if m.active.isNone then some id else m.active })

/-- `switch_session`, lifecycle.rs lines 62-82. -/
def switch (m : Mgr D) (id : Str) : Bool × Mgr D :=
  if m.sessions.has id then (true, { m with active := some id }) else (false, m)

/-- `remove_session`, lifecycle.rs lines 90-111.  `activeCount` is a natural number with truncated
subtraction; `C18_no_underflow` shows it is never 0 when a session exists. -/
def remove (m : Mgr D) (id : Str) : Option (D × Nat) × Mgr D :=
  match m.sessions.get id with
  | none => (none, m)
  | some s => (some s, { m with
      sessions := m.sessions.erase id
      activeCount := m.activeCount - 1
      active := if m.active = some id then none else m.active })

/-- `with_document_mut`, access.rs lines 35-51: the callback may change the document and fail; the
operation counter only moves on success. -/
def modify (m : Mgr D) (id : Str) (f : D → Bool × D) : Bool × Mgr D :=
  match m.sessions.get id with
  | none => (false, m)
  | some (d, n) =>
    let (ok, d') := f d
    (ok, { m with sessions := m.sessions.insert id (d', if ok then n + 1 else n) })

/-- `cleanup_stale_sessions`, access.rs lines 60-84; `stale` decides which sessions are stale. -/
def cleanup (m : Mgr D) (stale : Str → Bool) : Mgr D :=
  if m.autoCleanup then
    ((m.sessions.filter (fun p => stale p.1)).map (·.1)).foldl (fun m id => (remove m id).2) m
  else m

end Verif.Sessions
