import Verif.Model.Extensions
/-!
# Specification: extension manager histories
-/
namespace Verif.Spec.Ext
open Verif Verif.Extensions

/-- A call on the manager. -/
inductive Call where
  | load (e : Ext)
  | init (shared : Bool) (name : Str)
  | unload (shared : Bool) (name : Str)
  | setData (name key value : Str)

/-- Result and state of a call. -/
def Call.run (m : Mgr) : Call → Res × Mgr
  | .load e => Extensions.load m e
  | .init s n => Extensions.initExt s m n
  | .unload s n => Extensions.unload s m n
  | .setData n k v => (.ok, Extensions.setData m n k v)

/-- State after a history. -/
def after (cs : List Call) : Mgr := cs.foldl (fun m c => (c.run m).2) Extensions.new

/-- The extension is loaded. -/
def Loaded (m : Mgr) (n : Str) : Prop := (m.exts.get n).isSome

/-- Command `c` is registered for extension `n`. -/
def Registered (m : Mgr) (c n : Str) : Prop := m.commands.get c = some n

end Verif.Spec.Ext
