import Verif.Model.Map
import Verif.Model.Override
/-!
# The extension registry — `crates/ass-core/plugin/registry.rs`

Handlers are values of a type `T` with a name and a function from arguments to a result; section processors
likewise of a type `S`.  The order in which names are listed is left open in the code (hash map order).
-/
namespace Verif.Registry
open Verif

/-- `TagResult`, traits.rs lines 11-18, without the message. -/
inductive Res where
  | processed | ignored | failed
deriving DecidableEq, Repr

/-- `TagHandler`, traits.rs lines 34-54. -/
structure Tag where
  name : Str
  process : Str → Res

/-- `SectionProcessor`, traits.rs lines 60-80. -/
structure Sec where
  name : Str
  process : Str → List Str → Res

/-- `ExtensionRegistry`, registry.rs lines 24-29. -/
structure Reg where
  tags : Map Str Tag
  secs : Map Str Sec

/-- `ExtensionRegistry::new`, lines 34-39. -/
def new : Reg := ⟨[], []⟩

/-- `register_tag_handler`, lines 48-57: whether it succeeded. -/
def registerTag (h : Tag) (r : Reg) : Bool × Reg :=
  if Map.has r.tags h.name then (false, r) else (true, { r with tags := Map.insert r.tags h.name h })

/-- `register_section_processor`, lines 66-78. -/
def registerSec (p : Sec) (r : Reg) : Bool × Reg :=
  if Map.has r.secs p.name then (false, r) else (true, { r with secs := Map.insert r.secs p.name p })

/-- `process_tag`, lines 90-94. -/
def processTag (r : Reg) (n args : Str) : Option Res := (Map.get r.tags n).map (fun h => h.process args)

/-- `process_section`, lines 107-116. -/
def processSec (r : Reg) (n header : Str) (ls : List Str) : Option Res :=
  (Map.get r.secs n).map (fun p => p.process header ls)

/-- `tag_handler_names`, lines 120-122. -/
def tagNames (r : Reg) : List Str := r.tags.map (·.1)

/-- `section_processor_names`, lines 126-128. -/
def secNames (r : Reg) : List Str := r.secs.map (·.1)

/-- `has_tag_handler`, lines 132-134. -/
def hasTag (r : Reg) (n : Str) : Bool := Map.has r.tags n

/-- `has_section_processor`, lines 138-140. -/
def hasSec (r : Reg) (n : Str) : Bool := Map.has r.secs n

/-- `remove_tag_handler`, lines 147-149: what was removed. -/
def removeTag (n : Str) (r : Reg) : Option Tag × Reg := (Map.get r.tags n, { r with tags := Map.erase r.tags n })

/-- `remove_section_processor`, lines 156-158. -/
def removeSec (n : Str) (r : Reg) : Option Sec × Reg := (Map.get r.secs n, { r with secs := Map.erase r.secs n })

/-- `clear`, lines 161-164. -/
def clear (_ : Reg) : Reg := ⟨[], []⟩

/-- `extension_count`, lines 168-170. -/
def count (r : Reg) : Nat := r.tags.length + r.secs.length

/-- The calls that change a registry. -/
inductive Op where
  | addTag (h : Tag)
  | addSec (p : Sec)
  | dropTag (n : Str)
  | dropSec (n : Str)
  | clear

/-- One call. -/
def step (r : Reg) : Op → Reg
  | .addTag h => (registerTag h r).2
  | .addSec p => (registerSec p r).2
  | .dropTag n => (removeTag n r).2
  | .dropSec n => (removeSec n r).2
  | .clear => clear r

/-- A registry after a sequence of calls on a new one. -/
def run (ops : List Op) : Reg := ops.foldl step new

/-! ## Parsing a block with a registry — `crates/ass-core/analysis/events/tags/registry_parser.rs` -/

/-- `TagDiagnostic` with its kind: `MalformedTag`, or else `EmptyOverride`. -/
structure Diag where
  span : Str
  offset : Nat
  malformed : Bool
deriving DecidableEq, Repr

/-- What the parser has pushed (the complexity of tags is left out). -/
structure Out where
  tags : List Override.Tag
  diags : List Diag
deriving DecidableEq, Repr

/-- Pushing in front of what follows. -/
def push (ts : List Override.Tag) (ds : List Diag) : Outcome Out → Outcome Out
  | .ok o => .ok ⟨ts ++ o.tags, ds ++ o.diags⟩
  | r => r

/-- What one named tag pushes, registry_parser.rs lines 83-133; `proc` is `registry.process_tag`. -/
def pushed (proc : Str → Str → Option Res) (t : Override.Tag) : List Override.Tag × List Diag :=
  let bad : Diag := ⟨'\\' :: t.name ++ t.args, t.pos, true⟩
  let empty : Diag := ⟨'\\' :: t.name ++ t.args, t.pos, false⟩
  let rest (ds : List Diag) := if trim t.name = [] then ([], ds ++ [empty]) else ([t], ds)
  match proc t.name t.args with
  | some .processed => ([t], [])
  | some .failed => rest [bad]
  | some .ignored => rest []
  | none => rest []

/-- The loop of `parse_override_block_with_registry`, lines 38-150. -/
def blockLoop (proc : Str → Str → Option Res) : Nat → Nat → Str → Outcome Out
  | _, _, [] => .ok ⟨[], []⟩
  | 0, _, _ :: _ => .ok ⟨[], []⟩
  | k + 1, pos, c :: s =>
    if c = '\\' then
      let (name, r) := Override.scanName [] s
      if name ≠ [] then
        let (args, r2) := Override.scanArgs name r
        let p := pushed proc ⟨name, args, pos⟩
        push p.1 p.2 (blockLoop proc k (pos + 1 + byteLen name + byteLen args) r2)
      else
        match Override.emptySpan s with
        | none => .panic
        | some sp =>
          push [] [⟨sp, pos, false⟩] (match r with
            | [] => .ok ⟨[], []⟩
            | d :: r' => blockLoop proc k (pos + 1 + d.utf8Size) r')
    else blockLoop proc k (pos + c.utf8Size) s

/-- `parse_override_block_with_registry`, lines 27-151. -/
def parseBlock (r : Reg) (content : Str) (start : Nat) : Outcome Out :=
  blockLoop (processTag r) content.length start content

end Verif.Registry
