import Verif.Model.Doc
import Verif.Model.StrX
import Verif.Model.EventCmd
/-!
# Commands on styles

`crates/ass-editor/commands/style_commands/{delete,clone,edit,create,apply}.rs`.  Positions are byte offsets of
splits at found patterns.  The ranges, cursors and messages of the command result are left out.
-/
namespace Verif.StyleCmd
open Verif Verif.Doc Verif.Pos

/-- `format!("Style: {}", name)`, delete.rs line 39, clone.rs lines 41 and 44, edit.rs line 87. -/
def pattern (name : Str) : Str := "Style: ".toList ++ name

/-- The text up to and with the last line feed, and the rest: `content[..pos].rfind('\n')`, delete.rs lines
43-46, clone.rs lines 54-57, edit.rs lines 91-94. -/
def lineStart (s : Str) : Str × Str :=
  ((s.reverse.dropWhile (· ≠ '\n')).reverse, (s.reverse.takeWhile (· ≠ '\n')).reverse)

/-- The first line with the pattern: the text before the line, the line (without line feed), the text from
its line feed on; the common beginning of delete.rs lines 41-50, clone.rs lines 52-63, edit.rs lines 89-100. -/
def findLine (pat c : Str) : Option (Str × Str × Str) :=
  match splitOnceStr pat c with
  | none => none
  | some (a, b) =>
    let s := lineStart a
    some (s.1, s.2 ++ pat ++ b.takeWhile (· ≠ '\n'), b.dropWhile (· ≠ '\n'))

/-- The line feed that is deleted with the line, if there is one; delete.rs lines 47-50. -/
def nl : Str → Str
  | [] => []
  | _ :: _ => ['\n']

/-- `DeleteStyleCommand::execute`, delete.rs lines 37-66.  A name with a line feed is not followed exactly
(the end of the line is searched from the start of the pattern). -/
def delete (name : Str) (d : Doc) : Outcome Unit × Doc :=
  match findLine (pattern name) d.text with
  | none => (.err, d)
  | some (pre, line, post) => d.delete ⟨byteLen pre, byteLen pre + byteLen (line ++ nl post)⟩

/-- `CloneStyleCommand::execute`, clone.rs lines 39-92. -/
def clone (source target : Str) (d : Doc) : Outcome Unit × Doc :=
  if containsStr (pattern target) d.text then (.err, d)
  else
    match findLine (pattern source) d.text with
    | none => (.err, d)
    | some (pre, line, _) =>
      d.insert (byteLen pre + byteLen line) ('\n' :: replaceAll (pattern source) (pattern target) line)

/-- The text from the last occurrence of the pattern on (`rfind`). -/
def fromLast (pat s : Str) : Option Str :=
  match splitOnceStr pat.reverse s.reverse with
  | none => none
  | some (a, _) => some (pat ++ a.reverse)

/-- The text from the header of the styles section on, as far as it lies before the style line; edit.rs
lines 108-112. -/
def stylesSection (pre : Str) : Option Str :=
  match fromLast "[V4+ Styles]".toList pre with
  | some s => some s
  | none =>
    match fromLast "[V4 Styles]".toList pre with
    | some s => some s
    | none => fromLast "[Styles]".toList pre

/-- The names in a format line; edit.rs lines 124-129. -/
def formatNames (line : Str) : List Str :=
  splitStr ", ".toList (match stripPrefix "Format: ".toList line with | some r => r | none => line)

/-- One update, edit.rs lines 137-142. -/
def update (names : List Str) (fields : List Str) (u : Str × Str) : List Str :=
  match names.findIdx? (· = u.1) with
  | some i => if i < fields.length then fields.set i u.2 else fields
  | none => fields

/-- `EditStyleCommand::execute`, edit.rs lines 85-162.  The updates of the hash map are given as a list: they
have different names, so the order does not matter. -/
def edit (name : Str) (updates : List (Str × Str)) (d : Doc) : Outcome Unit × Doc :=
  match findLine (pattern name) d.text with
  | none => (.err, d)
  | some (pre, line, post) =>
    let fields := splitOn ',' line
    if fields.length < 2 then (.err, d)
    else
      match stylesSection pre with
      | none => (.err, d)
      | some sec =>
        match splitOnceStr "Format:".toList (sec ++ line ++ post) with
        | none => (.err, d)
        | some (_, b) =>
          let names := formatNames ("Format:".toList ++ b.takeWhile (· ≠ '\n'))
          d.replace ⟨byteLen pre, byteLen pre + byteLen line⟩ (joinStr [','] (updates.foldl (update names) fields))

/-- The text before the styles section and the text from its header on; create.rs lines 47-50. -/
def firstSection (c : Str) : Option (Str × Str) :=
  match splitOnceStr "[V4+ Styles]".toList c with
  | some (a, b) => some (a, "[V4+ Styles]".toList ++ b)
  | none =>
    match splitOnceStr "[V4 Styles]".toList c with
    | some (a, b) => some (a, "[V4 Styles]".toList ++ b)
    | none =>
      match splitOnceStr "[Styles]".toList c with
      | some (a, b) => some (a, "[Styles]".toList ++ b)
      | none => none

/-- The format line of a new section, create.rs line 81. -/
def newFormat : Str :=
  ("Format: Name, Fontname, Fontsize, PrimaryColour, SecondaryColour, OutlineColour, BackColour, Bold, " ++
   "Italic, Underline, StrikeOut, ScaleX, ScaleY, Spacing, Angle, BorderStyle, Outline, Shadow, Alignment, " ++
   "MarginL, MarginR, MarginV, Encoding").toList

/-- A script without (ended) styles section, create.rs lines 79-91. -/
def createSection (line : Str) (d : Doc) : Outcome Unit × Doc :=
  let text := "\n[V4+ Styles]\n".toList ++ newFormat ++ ['\n'] ++ line ++ ['\n']
  match splitOnceStr "[Events]".toList d.text with
  | some (a, _) => d.insert (byteLen a) text
  | none => d.insert (byteLen d.text) text

/-- `CreateStyleCommand::execute`, create.rs lines 39-102, for the style line made by the builder. -/
def create (line : Str) (d : Doc) : Outcome Unit × Doc :=
  match firstSection d.text with
  | none => createSection line d
  | some (a, sec) =>
    match splitOnce '\n' sec with
    | none => createSection line d
    | some (h, r) =>
      match splitOnce '\n' r with
      | some (f, _) => d.insert (byteLen a + byteLen h + 1 + byteLen f + 1) (line ++ ['\n'])
      | none => d.insert (byteLen a + byteLen h + 1) (line ++ ['\n'])

/-- The change of one event, apply.rs lines 91-107. -/
def applyEdit (old new : Str) (filter : Option Str) (line : Str) : Option Str :=
  match splitOn ',' line with
  | _ :: _ :: _ :: style :: _ :: _ =>
    if trim style = old && (match filter with | some f => containsStr f line | none => true) then
      some (replaceAll (',' :: old ++ [',']) (',' :: new ++ [',']) line)
    else none
  | _ => none

/-- The text up to the first event: the header line and the line after it; apply.rs lines 56-71. -/
def eventsStart (c : Str) : Option Str :=
  match splitOnceStr "[Events]".toList c with
  | none => none
  | some (a, b) =>
    match splitOnce '\n' b with
    | none => none
    | some (h, r) =>
      match splitOnce '\n' r with
      | some (f, _) => some (a ++ "[Events]".toList ++ h ++ ['\n'] ++ f ++ ['\n'])
      | none => some (a ++ "[Events]".toList ++ h ++ ['\n'])

/-- `ApplyStyleCommand::execute`, apply.rs lines 52-150: the loop is that of the event commands
(`EventCmd.editLoop`), with the same stale line end after a replacement.  A second line `[Events]` does not end it. -/
def apply (old new : Str) (filter : Option Str) (n : Nat) (d : Doc) : Option (Outcome Unit × Doc) :=
  match eventsStart d.text with
  | none => some (.err, d)
  | some pre => EventCmd.editLoop true (fun _ l => .ok (applyEdit old new filter l)) n d (byteLen pre) 0

end Verif.StyleCmd
