import Verif.Model.Doc
import Verif.Model.StrX
/-!
# Commands on script properties

`crates/ass-editor/commands/script_info_commands/{set,get,delete}.rs`.  Positions are byte offsets of
splits at found patterns, so the slices of the code never leave character boundaries.  The ranges and
cursor positions reported in the command result are left out.
-/
namespace Verif.InfoCmd
open Verif Verif.Doc Verif.Pos

/-- The header of the section. -/
def header : Str := "[Script Info]".toList

/-- The text before the section, the section (up to the line feed before the next `[`) and the rest;
set.rs lines 33-44, get.rs lines 30-41 and 77-88, delete.rs lines 31-42. -/
def parts (c : Str) : Option (Str × Str × Str) :=
  match splitOnceStr header c with
  | none => none
  | some (pre, b) =>
    match splitOnceStr "\n[".toList (header ++ b) with
    | none => some (pre, header ++ b, [])
    | some (sec, r) => some (pre, sec, "\n[".toList ++ r)

/-- `format!("{}: ", property)`, set.rs line 47. -/
def key (p : Str) : Str := p ++ ": ".toList

/-- The rest of the line. -/
def toEol (s : Str) : Str := s.takeWhile (· ≠ '\n')

/-- `SetScriptInfoCommand::execute`, set.rs lines 32-89. -/
def set (p v : Str) (d : Doc) : Outcome Unit × Doc :=
  match parts d.text with
  | none => (.err, d)
  | some (pre, sec, post) =>
    match splitOnceStr (key p) sec with
    | some (a, b) =>
      let start := byteLen pre + byteLen a
      d.replace ⟨start, start + byteLen (toEol (key p ++ b ++ post))⟩ (key p ++ v)
    | none =>
      let pos :=
        match splitOnce '\n' (sec ++ post) with
        | some (l, _) => byteLen pre + byteLen l + 1
        | none => byteLen pre + 13
      let r := insertRaw d.text pos (key p ++ v ++ ['\n'])
      (r.1, { d with text := r.2 })

/-- `GetScriptInfoCommand::get_value`, get.rs lines 29-59. -/
def get (p : Str) (d : Doc) : Outcome (Option Str) :=
  match parts d.text with
  | none => .err
  | some (_, sec, _) =>
    match splitOnceStr (key p) sec with
    | some (_, b) => .ok (some (trim (toEol b)))
    | none => .ok none

/-- One line of `get_all`, get.rs lines 93-105. -/
def pair (line : Str) : Option (Str × Str) :=
  if startsWith "[".toList line || (trim line).isEmpty then none
  else
    match splitOnce ':' line with
    | some (n, v) => some (trim n, trim v)
    | none => none

/-- `GetAllScriptInfoCommand::get_all`, get.rs lines 76-108. -/
def getAll (d : Doc) : Outcome (List (Str × Str)) :=
  match parts d.text with
  | none => .err
  | some (_, sec, _) => .ok ((lines sec).filterMap pair)

/-- End of the deleted line, with its line feed; delete.rs lines 50-53. -/
def withNl (s : Str) : Str :=
  match splitOnce '\n' s with
  | some (l, _) => l ++ ['\n']
  | none => s

/-- `DeleteScriptInfoCommand::execute`, delete.rs lines 30-65. -/
def delete (p : Str) (d : Doc) : Outcome Unit × Doc :=
  match parts d.text with
  | none => (.err, d)
  | some (pre, sec, post) =>
    match splitOnceStr (key p) sec with
    | some (a, b) =>
      let start := byteLen pre + byteLen a
      d.delete ⟨start, start + byteLen (withNl (key p ++ b ++ post))⟩
    | none => (.ok (), d)

end Verif.InfoCmd
