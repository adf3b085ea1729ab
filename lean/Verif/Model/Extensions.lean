import Verif.Model.Map
import Verif.Model.Str
/-!
# Extension manager — `crates/ass-editor/extensions/{manager,manager_loading,manager_access,context}.rs`

An extension is described by its name, dependencies, command ids, whether its `initialize` and
`shutdown` succeed, and whether they read or write manager state through the `ExtensionContext` they
are given.  Commands are reduced to their id and owner.  Every `with_inner`/`with_inner_mut` closure
is atomic; user callbacks run inside the closure, i.e. while the (non-reentrant `parking_lot`) mutex is
held — so a callback that goes back to the same manager never returns (`Res.hang`).
-/
namespace Verif.Extensions
open Verif

/-- `ExtensionState`, command.rs. -/
inductive St where
  | uninitialized | initializing | active | error | shuttingDown | shutdown
deriving DecidableEq

/-- An extension as the manager sees it. -/
structure Ext where
  name : Str
  deps : List Str
  commands : List Str
  initOk : Bool
  initUsesManager : Bool
  shutOk : Bool
  shutUsesManager : Bool
deriving DecidableEq

/-- `ExtensionManagerInner`, manager.rs lines 45-69. -/
structure Mgr where
  exts : Map Str Ext
  states : Map Str St
  commands : Map Str Str
  data : Map Str (Map Str Str)

/-- `ExtensionManager::new`. -/
def new : Mgr := ⟨[], [], [], []⟩

/-- Result of a call. -/
inductive Res where
  | ok | err | hang
deriving DecidableEq

/-- `load_extension`, manager_loading.rs lines 18-48. -/
def load (m : Mgr) (e : Ext) : Res × Mgr :=
  if !e.deps.all (fun d => m.states.has d) then (.err, m)
  else if m.exts.has e.name then (.err, m)
  else (.ok, { m with exts := m.exts.insert e.name e, states := m.states.insert e.name .uninitialized })

/-- `initialize_extension`, manager_loading.rs lines 51-90.  `shared` says that the context passed
works on this same manager (`EditorContext` with a clone of it, context.rs lines 53-150). -/
def initExt (shared : Bool) (m : Mgr) (name : Str) : Res × Mgr :=
  let m1 := { m with states := m.states.insert name .initializing }
  match m.exts.get name with
  | none => (.err, m1)
  | some e =>
    if shared && e.initUsesManager then (.hang, m1)
    else if e.initOk then
      (.ok, { m1 with
        states := m1.states.insert name .active
        commands := e.commands.foldl (fun cs c => cs.insert c name) m.commands })
    else (.err, { m1 with states := m1.states.insert name .error })

/-- `shutdown_extension`, manager_loading.rs lines 119-137. -/
def shutdown (shared : Bool) (m : Mgr) (name : Str) : Res × Mgr :=
  let m1 := { m with states := m.states.insert name .shuttingDown }
  match m.exts.get name with
  | none => (.ok, m1)
  | some e =>
    if shared && e.shutUsesManager then (.hang, m1)
    else if e.shutOk then (.ok, { m1 with states := m1.states.insert name .shutdown })
    else (.err, m1)

/-- `unload_extension`, manager_loading.rs lines 93-116. -/
def unload (shared : Bool) (m : Mgr) (name : Str) : Res × Mgr :=
  let (r, m1) := shutdown shared m name
  match r with
  | .ok => (.ok,
      { exts := m1.exts.erase name
        states := m1.states.erase name
        commands := m1.commands.filter (fun p => p.2 ≠ name)
        data := m1.data.erase name })
  | r => (r, m1)

/-- `set_extension_data`, manager_access.rs lines 85-93. -/
def setData (m : Mgr) (name key value : Str) : Mgr :=
  { m with data := m.data.insert name (((m.data.get name).getD []).insert key value) }

/-- `get_extension_data`, manager_access.rs lines 74-82. -/
def getData (m : Mgr) (name key : Str) : Option Str := (m.data.get name).bind (fun d => d.get key)

/-- `execute_command`, manager_access.rs lines 23-44: the extension that is asked to run the command,
or none when the call reports an error. -/
def execute (m : Mgr) (cmd : Str) : Option Str :=
  match m.commands.get cmd with
  | none => none
  | some name => if m.exts.has name then some name else none

end Verif.Extensions
