import Verif.Model.Builtins
/-!
# The extensions of a document — `crates/ass-editor/core/document/plugins.rs`

Of a document only the text and the registry are kept.  The registry is shared (`Arc`), but nothing hands out another reference to it, so
that `Arc::get_mut` (lines 78, 106) succeeds.  What a processor says when it fails is left out, as in `Model/Registry.lean`.
-/
namespace Verif.DocPlugins
open Verif Verif.Registry Verif.Builtins

/-- The document, types.rs lines 30-66. -/
structure PDoc where
  text : Str
  reg : Option Reg

/-- `AegisubProjectProcessor` as a processor of the registry, plugin/sections/aegisub/processors.rs lines 16-47. -/
def projectSec : Sec := ⟨"Aegisub Project".toList, fun hd ls =>
  match SectionExt.project hd ls with
  | .processed => .processed
  | .ignored => .ignored
  | .failed _ => .failed⟩

/-- `register_builtin_extensions`, extensions/builtin/mod.rs lines 33-50, with `register_builtin_sections`,
registry_integration/builtins.rs lines 142-154. -/
def registerExtensions (r : Reg) : Bool × Reg :=
  match registerBuiltins r with
  | (true, r1) => registerSec projectSec r1
  | (false, r1) => (false, r1)

/-- `initialize_registry`, plugins.rs lines 17-27. -/
def setUp (d : PDoc) : Bool × PDoc :=
  match registerExtensions Registry.new with
  | (true, r) => (true, { d with reg := some r })
  | (false, _) => (false, d)

/-- Lines 66-68 and 94-96. -/
def prepared (d : PDoc) : Bool × PDoc := if d.reg.isNone then setUp d else (true, d)

/-- `register_tag_handler`, plugins.rs lines 61-86: the extension named by the error, if any. -/
def registerTag (e : Str) (h : Tag) (d : PDoc) : Option Str × PDoc :=
  match prepared d with
  | (false, d1) => (some "builtin".toList, d1)
  | (true, d1) =>
    match d1.reg with
    | none => (some e, d1)
    | some r => ((customTag e h r).1, { d1 with reg := some (customTag e h r).2 })

/-- `register_section_processor`, plugins.rs lines 89-114. -/
def registerSec (e : Str) (p : Sec) (d : PDoc) : Option Str × PDoc :=
  match prepared d with
  | (false, d1) => (some "builtin".toList, d1)
  | (true, d1) =>
    match d1.reg with
    | none => (some e, d1)
    | some r => ((customSec e p r).1, { d1 with reg := some (customSec e p r).2 })

/-- The processors of a registry as the parser uses them. -/
def processors (r : Reg) : SectionExt.Registry := fun n => (Map.get r.secs n).map (fun p hd ls =>
  match p.process hd ls with
  | .processed => .processed
  | .ignored => .ignored
  | .failed => .failed [])

/-- What `parse_with_extensions`, plugins.rs lines 40-58, gives to the function. -/
def parse (d : PDoc) : Option SectionExt.Parsed :=
  match d.reg with
  | some r => SectionExt.parseWith (some (processors r)) d.text
  | none => SectionExt.parseWith none d.text

/-- The calls on a document; `edit` stands for every change of the text. -/
inductive Call where
  | init
  | tag (e : Str) (h : Tag)
  | sec (e : Str) (p : Sec)
  | edit (s : Str)

/-- One call. -/
def step (d : PDoc) : Call → PDoc
  | .init => (setUp d).2
  | .tag e h => (registerTag e h d).2
  | .sec e p => (registerSec e p d).2
  | .edit s => { d with text := s }

/-- Calls one after the other. -/
def run (d : PDoc) (l : List Call) : PDoc := l.foldl step d

end Verif.DocPlugins
