import Verif.Model.Map
import Verif.Model.Str
/-!
# What extensions do through their context — `crates/ass-editor/extensions/{context,manager_lifecycle,manager_access}.rs`

A host makes the manager, keeping the receiving end of the event channel and giving a message handler
(`with_event_channel`, manager_lifecycle.rs lines 87-114).  Extensions work through contexts made by `create_context`.
Events are reduced to a number.  What is printed to standard error is not modelled.
Every access takes the lock of the manager once, so that in builds with `multi-thread` the work of several contexts at
once is a sequence of single actions.
-/
namespace Verif.ExtContext
open Verif

/-- `MessageLevel`, command.rs lines 101-111. -/
inductive Level where
  | info | warning | error | success
deriving DecidableEq

/-- The manager, manager.rs lines 45-69: configuration, data, commands with their extension, and what the receiver of
`event_tx` and the `message_handler` have got. -/
structure Mgr where
  config : Map Str Str
  data : Map Str (Map Str Str)
  commands : Map Str Str
  received : List Nat
  shown : List (Str × Level)
deriving DecidableEq

/-- `with_event_channel`, manager_lifecycle.rs lines 87-114. -/
def new : Mgr := ⟨[], [], [], [], []⟩

/-- `set_config`, manager_access.rs lines 67-71. -/
def setConfig (m : Mgr) (k v : Str) : Mgr := { m with config := m.config.insert k v }

/-- `get_config`, manager_access.rs lines 62-64. -/
def getConfig (m : Mgr) (k : Str) : Option Str := m.config.get k

/-- `set_extension_data`, manager_access.rs lines 85-93. -/
def setData (m : Mgr) (n k v : Str) : Mgr :=
  { m with data := m.data.insert n (((m.data.get n).getD []).insert k v) }

/-- `get_extension_data`, manager_access.rs lines 74-82. -/
def getData (m : Mgr) (n k : Str) : Option Str := (m.data.get n).bind (fun d => d.get k)

/-- `EditorContext`, context.rs lines 53-67: the manager it works on, its map `manager_mut_state` (builds without
`multi-thread`) and the name of the extension. -/
structure Ctx where
  mgr : Mgr
  own : Map Str Str
  name : Str

/-- `create_context`, manager_lifecycle.rs lines 117-144. -/
def create (m : Mgr) (name : Str) : Ctx := ⟨m, m.config, name⟩

/-- What an extension does through its context. -/
inductive Action where
  | sendEvent (e : Nat)
  | setConfig (k v : Str)
  | registerCommand (id : Str)
  | showMessage (text : Str) (level : Level)
  | setData (k v : Str)
deriving DecidableEq

/-- The methods of `EditorContext`, context.rs lines 69-150: `send_event` (78-86), `set_config` (99-110),
`register_command` (112-123), `show_message` (125-139), `set_extension_data` (145-149).  `multi` says that the build has
the feature `multi-thread`.  They all report success. -/
def Action.run (multi : Bool) (c : Ctx) : Action → Ctx
  | .sendEvent _ => c
  | .setConfig k v =>
    if multi then { c with mgr := ExtContext.setConfig c.mgr k v }
    else { c with own := c.own.insert k v }
  | .registerCommand _ => c
  | .showMessage _ _ => c
  | .setData k v => { c with mgr := ExtContext.setData c.mgr c.name k v }

/-- A context made by `create_context` for an extension, after these actions. -/
def work (multi : Bool) (m : Mgr) (name : Str) (acts : List Action) : Ctx :=
  acts.foldl (Action.run multi) (create m name)

/-- `EditorContext::get_config`, context.rs lines 88-97. -/
def Ctx.getConfig (c : Ctx) (k : Str) : Option Str := ExtContext.getConfig c.mgr k

/-- `EditorContext::get_extension_data`, context.rs lines 141-143. -/
def Ctx.getData (c : Ctx) (n k : Str) : Option Str := ExtContext.getData c.mgr n k

/-- What happens to a manager: its owner sets a configuration or the data of an extension, or an extension works
through a context of its own. -/
inductive Op where
  | config (k v : Str)
  | data (n k v : Str)
  | context (name : Str) (acts : List Action)
deriving DecidableEq

/-- One of these. -/
def Op.run (multi : Bool) (m : Mgr) : Op → Mgr
  | .config k v => setConfig m k v
  | .data n k v => setData m n k v
  | .context n acts => (work multi m n acts).mgr

/-- The manager after a history. -/
def after (multi : Bool) (ops : List Op) : Mgr := ops.foldl (Op.run multi) new

end Verif.ExtContext
