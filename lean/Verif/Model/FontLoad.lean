import Verif.Model.Media
/-!
# The fonts a script brings — `crates/ass-renderer/src/pipeline/font_loader.rs`

The database is the list of what has been handed to it; what it makes of the data is fontdb's affair.  Which paths are
files is a parameter.
-/
namespace Verif.FontLoad
open Verif
open Verif.Parser

/-- What is handed to the database: data (`load_font_data`), or a path (`load_font_file`). -/
inductive Item where
  | data (bytes : List Nat)
  | file (path : Str)
deriving DecidableEq, Repr

/-- `find_map` for the fonts, lines 48-54. -/
def fontsOf : List Section → Option (List Parser.Media)
  | [] => none
  | .fonts l :: _ => some l
  | _ :: s => fontsOf s

/-- `load_embedded_fonts`, lines 46-68; decoding never fails (`Media.decodeData`). -/
def embedded (secs : List Section) (db : List Item) : List Item :=
  match fontsOf secs with
  | none => db
  | some l => db ++ l.map (fun m => .data (Media.decodeData m))

/-- `find_map` for the script information, lines 76-82. -/
def infoOf : List Section → Option (List (Str × Str))
  | [] => none
  | .info f _ :: _ => some f
  | _ :: s => infoOf s

/-- `key.to_lowercase().contains("font")`, line 86; no character but the capitals of ASCII has one of these letters as
its small letter. -/
def named (key : Str) : Bool := containsStr "font".toList (key.map Ast.lower)

/-- `load_font_files`, lines 71-100. -/
def files (isFile : Str → Bool) (secs : List Section) (db : List Item) : List Item :=
  match infoOf secs with
  | none => db
  | some f => db ++ f.filterMap (fun kv => if named kv.1 ∧ isFile (trim kv.2) then some (.file (trim kv.2)) else none)

/-- `load_script_fonts`, lines 103-109; the beginning of `prepare_script`, build/run.rs line 84, on the database the
pipeline keeps. -/
def load (isFile : Str → Bool) (secs : List Section) (db : List Item) : List Item := files isFile secs (embedded secs db)

end Verif.FontLoad
