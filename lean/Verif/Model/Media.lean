import Verif.Model.Parser
import Verif.Model.UU
/-!
# Commands on embedded fonts and graphics — `crates/ass-editor/commands/fonts_graphics_commands/`

The font and the graphic commands differ only in the section (`[Fonts]`, `[Graphics]`) and the key (`fontname`,
`filename`), which are parameters here.  All positions come from found patterns, so that they are character boundaries
and the edits of the document succeed; only the resulting text is modelled, not the reported ranges.
-/
namespace Verif.Media
open Verif

/-- The text before the section, the section (up to the line feed before the next `[`) and the rest: add.rs lines 50-57,
remove.rs lines 33-41, list.rs lines 28-37, clear.rs lines 33-42. -/
def parts (hd c : Str) : Option (Str × Str × Str) :=
  match splitOnceStr hd c with
  | none => none
  | some (pre, b) =>
    match splitOnceStr "\n[".toList (hd ++ b) with
    | none => some (pre, hd ++ b, [])
    | some (sec, r) => some (pre, sec, "\n[".toList ++ r)

/-- The text inserted, add.rs lines 74-79. -/
def entry (key name : Str) (lines : List Str) : Str :=
  key ++ ": ".toList ++ name ++ ['\n'] ++ lines.flatMap (fun l => l ++ ['\n'])

/-- `AddFontCommand::execute`, `AddGraphicCommand::execute`, add.rs lines 46-91 and 136-181. -/
def add (hd key name : Str) (lines : List Str) (c : Str) : Str :=
  match parts hd c with
  | some (pre, sec, post) => pre ++ sec ++ entry key name lines ++ post
  | none => c ++ (if endsWith ['\n'] c then [] else ['\n']) ++ hd ++ ['\n'] ++ entry key name lines

/-- `from_binary` then `execute`, add.rs lines 36-42. -/
def addBinary (hd key name : Str) (data : List Nat) (c : Str) : Str := add hd key name (UU.encode name data) c

/-- `ListFontsCommand::list`, `ListGraphicsCommand::list`, list.rs lines 24-49 and 71-96. -/
def list (hd key c : Str) : List Str :=
  match parts hd c with
  | none => []
  | some (_, sec, _) => (lines sec).filterMap (fun l => (stripPrefix (key ++ ": ".toList) l).map trim)

/-- `ClearFontsCommand::execute`, clear.rs lines 29-56 and 87-114. -/
def clear (hd c : Str) : Str :=
  match parts hd c with
  | none => c
  | some (pre, sec, post) =>
    match splitOnce '\n' (sec ++ post) with
    | some (l, _) => if sec.length > l.length + 1 then pre ++ l ++ ['\n'] ++ post else c
    | none => if sec.length > hd.length then pre ++ hd ++ post else c

/-- `RemoveFontCommand::execute`, remove.rs lines 29-67 and 95-133; `none`: the command fails. -/
def remove (hd key name c : Str) : Option Str :=
  match parts hd c with
  | none => none
  | some (pre, sec, post) =>
    match splitOnceStr (key ++ ": ".toList ++ name) sec with
    | none => some c
    | some (a, b) =>
      match splitOnceStr ("\n".toList ++ key ++ ":".toList) (key ++ ": ".toList ++ name ++ b ++ post) with
      | some (_, r) => some (pre ++ a ++ "\n".toList ++ key ++ ":".toList ++ r)
      | none => some (pre ++ a ++ post)

/-- `Font::decode_data`, `Graphic::decode_data`: ass-core/parser/ast/media/font.rs lines 72-74, graphic.rs. -/
def decodeData (m : Parser.Media) : List Nat := UU.decode m.data

end Verif.Media
