import Verif.Model.Parser
import Verif.Model.Resolved
/-!
# The registry of formats, and the ASS format — `crates/ass-editor/formats/{registry,traits}.rs`, `formats/ass/format.rs`

Importers and exporters are known by a number; a combined format has the extensions it imports and those it exports.
-/
namespace Verif.FormatReg
open Verif
open Verif.Parser (Script Section parse toAss)

/-- A format, importer or exporter: `FormatInfo`, types.rs lines 10-23, as its two `format_info` give it. -/
structure Item where
  id : Nat
  name : Str
  imports : List Str
  exports : List Str
deriving DecidableEq, Repr

/-- `FormatRegistry`, registry.rs lines 13-17: hash maps by name. -/
structure Reg where
  importers : List Item := []
  exporters : List Item := []
  formats : List Item := []
deriving DecidableEq, Repr

/-- `HashMap::insert` under the name. -/
def put (m : List Item) (x : Item) : List Item := x :: m.filter fun y => y.name ≠ x.name

/-- What can be registered. -/
inductive Cls where
  | importer | exporter | format
deriving DecidableEq, Repr

/-- `register_format`, `register_importer`, `register_exporter`, registry.rs lines 26-41. -/
def Reg.register (r : Reg) : Cls × Item → Reg
  | (.format, x) => { r with formats := put r.formats x }
  | (.importer, x) => { r with importers := put r.importers x }
  | (.exporter, x) => { r with exporters := put r.exporters x }

/-- A registry after these registrations. -/
def build (l : List (Cls × Item)) : Reg := l.foldl Reg.register {}

/-- `can_import`, `can_export`, traits.rs lines 18-23 and 60-65. -/
def lists (exts : List Str) (ext : Str) : Bool := exts.any fun e => e.map Char.toLower == ext.map Char.toLower

/-- `find_importer`, registry.rs lines 44-60; `ord` is the order in which the maps give their values. -/
def findImporter (ord : List Item → List Item) (r : Reg) (ext : Str) : Option Item :=
  ((ord r.formats).find? fun x => lists x.imports ext).or ((ord r.importers).find? fun x => lists x.imports ext)

/-- `find_exporter`, registry.rs lines 63-79. -/
def findExporter (ord : List Item → List Item) (r : Reg) (ext : Str) : Option Item :=
  ((ord r.formats).find? fun x => lists x.exports ext).or ((ord r.exporters).find? fun x => lists x.exports ext)

/-- `Vec::dedup`. -/
def dedup : List Str → List Str
  | [] => []
  | [a] => [a]
  | a :: b :: l => if a = b then dedup (b :: l) else a :: dedup (b :: l)

/-- Strings are ordered by their bytes, which is the order of their characters. -/
def sortStr (l : List Str) : List Str := l.mergeSort fun a b => decide (a ≤ b)

/-- `supported_import_extensions`, registry.rs lines 82-100. -/
def importExts (ord : List Item → List Item) (r : Reg) : List Str :=
  dedup (sortStr ((ord r.formats).flatMap (·.imports) ++ (ord r.importers).flatMap (·.imports)))

/-- `supported_export_extensions`, registry.rs lines 103-121. -/
def exportExts (ord : List Item → List Item) (r : Reg) : List Str :=
  dedup (sortStr ((ord r.formats).flatMap (·.exports) ++ (ord r.exporters).flatMap (·.exports)))

/-- The errors, registry.rs lines 132 and 136; and those of the format. -/
inductive Res (α : Type) where
  | ok (a : α) | noExtension | unsupported | failed
deriving DecidableEq, Repr

/-- `import_file`, registry.rs lines 124-141; `ext` is the extension of the path, `run` the importer's `import_from_path`. -/
def importFile {α : Type} (ord : List Item → List Item) (r : Reg) (ext : Option Str) (run : Item → Option α) : Res α :=
  match ext with
  | none => .noExtension
  | some e => match findImporter ord r e with
    | none => .unsupported
    | some x => match run x with
      | some a => .ok a
      | none => .failed

/-- `export_to_path`, traits.rs lines 76-85: the file is created (and emptied) before anything is written.  `file` is what the path held;
creation and writing themselves succeed.  The text written, or an error. -/
def exportToPath (write : Option Str) (_file : Option Str) : Bool × Option Str :=
  match write with
  | some s => (true, some s)
  | none => (false, some [])

/-- `export_file`, registry.rs lines 144-162, with what the file holds afterwards. -/
def exportFile (ord : List Item → List Item) (r : Reg) (ext : Option Str) (write : Item → Option Str) (file : Option Str) : Res Unit × Option Str :=
  match ext with
  | none => (.noExtension, file)
  | some e => match findExporter ord r e with
    | none => (.unsupported, file)
    | some x => match exportToPath (write x) file with
      | (true, f) => (.ok (), f)
      | (false, f) => (.failed, f)

/-! ## ASS -/

/-- `FormatResult` of an import: lines, and the metadata. -/
structure Imported where
  text : Str
  lines : Nat
  title : Option Str
  scriptType : Option Str
  sections : Nat
deriving DecidableEq, Repr

/-- `AssFormat::import_from_reader`, ass/format.rs lines 46-87; `none` is an error of the parser. -/
def importAss (s : Str) : Option Imported :=
  (parse s).map fun p =>
    { text := s, lines := (lines s).length, title := Resolved.field (Resolved.firstInfo p.sections) "Title".toList,
      scriptType := Resolved.field (Resolved.firstInfo p.sections) "ScriptType".toList, sections := p.sections.length }

/-- `AssFormat::export_to_writer`, ass/format.rs lines 95-140: what is written, the lines reported, whether there is a warning. -/
def exportAss (s : Str) (preserve : Bool) (encoding : Str) : Option (Str × Nat × Bool) :=
  (if preserve then some s else (parse s).map toAss).map fun c =>
    (c, (lines c).length, !(encoding.map Char.toLower == "utf-8".toList))

end Verif.FormatReg
