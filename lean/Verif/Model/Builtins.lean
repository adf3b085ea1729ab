import Verif.Model.Handlers
import Verif.Model.SectionExt
/-!
# Registering the built-in handlers — `crates/ass-editor/extensions/registry_integration/`

`RegistryIntegration` holds a registry and two lists of providers that nothing fills; only the registry is kept here.
-/
namespace Verif.Builtins
open Verif
open Verif.Registry

/-- The names in the order of registration: builtins.rs lines 19-136 with the `create_*_handlers` of
`crates/ass-core/plugin/tags`: formatting.rs lines 154-159, special/mod.rs lines 44-48, font/mod.rs lines 44-48,
advanced/mod.rs lines 44-48, alignment/mod.rs lines 43-47, karaoke/mod.rs lines 60-65, position/mod.rs lines 47-50,
color/mod.rs lines 58-69, transform/mod.rs lines 60-69, animation/mod.rs lines 48-52, clipping/mod.rs line 42,
misc/mod.rs lines 44-48. -/
def order : List Str :=
  ["b", "i", "u", "s", "n", "N", "h", "fn", "fs", "fe", "bord", "shad", "be", "a", "an", "q", "k", "kf", "ko", "kt", "pos", "move",
   "c", "1c", "2c", "3c", "4c", "alpha", "1a", "2a", "3a", "4a", "frz", "frx", "fry", "fscx", "fscy", "fax", "fay", "fsp",
   "t", "fade", "fad", "clip", "r", "fr", "org"].map String.toList

/-- The handlers in this order. -/
def handlers : List Tag := order.filterMap (fun n => Handlers.builtin.find? (fun h => h.name = n))

/-- The loops of `register_builtin_handlers`, builtins.rs lines 15-139: they stop at the first failure. -/
def registerAll : List Tag → Reg → Bool × Reg
  | [], r => (true, r)
  | h :: l, r => match registerTag h r with
    | (true, r') => registerAll l r'
    | (false, r') => (false, r')

/-- `register_builtin_handlers`, builtins.rs lines 15-139. -/
def registerBuiltins (r : Reg) : Bool × Reg := registerAll handlers r

/-- `EditorTagHandlerAdapter`, adapters.rs lines 36-51: a handler of an extension, and what it says of arguments. -/
def tagAdapter (name : Str) : Tag × (Str → Bool) := (⟨name, fun _ => .processed⟩, fun args => !decide (args = []))

/-- `EditorSectionProcessorAdapter`, adapters.rs lines 76-91. -/
def secAdapter (name : Str) : Sec × (Str → List Str → Bool) :=
  (⟨name, fun _ _ => .processed⟩, fun header ls => !decide (header = []) && !decide (ls = []))

/-- `register_custom_tag_handler`, integration.rs lines 62-73: the error names the extension. -/
def customTag (extension : Str) (h : Tag) (r : Reg) : Option Str × Reg :=
  match registerTag h r with
  | (true, r') => (none, r')
  | (false, r') => (some extension, r')

/-- `register_custom_section_processor`, integration.rs lines 76-87. -/
def customSec (extension : Str) (p : Sec) (r : Reg) : Option Str × Reg :=
  match registerSec p r with
  | (true, r') => (none, r')
  | (false, r') => (some extension, r')

end Verif.Builtins
