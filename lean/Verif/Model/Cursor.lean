import Verif.Model.LineCol
/-!
# Edits at a position and over a selection — `crates/ass-editor/core/fluent/{position,selection,document_ext}.rs`

Features `std` and `rope`, so lines are those of ropey's default features.  `usize` is unbounded: `Position::advance` (points.rs
lines 61-65) saturates.
-/
namespace Verif.Cursor
open Verif Verif.Pos Verif.Doc Verif.LineCol

/-- `AtPosition::insert_text`, position.rs lines 24-28. -/
def insertText (d : Doc) (pos : Nat) (t : Str) : Outcome Unit × Doc := d.replace (Range.empty pos) t

/-- `AtPosition::insert_line`, position.rs lines 31-33. -/
def insertLine (d : Doc) (pos : Nat) : Outcome Unit × Doc := insertText d pos ['\n']

/-- `AtPosition::delete`, position.rs lines 36-41. -/
def delete (d : Doc) (pos count : Nat) : Outcome Unit × Doc := d.delete (Range.new pos (pos + count))

/-- `AtPosition::backspace`, position.rs lines 44-49; `retreat` saturates (points.rs lines 69-73). -/
def backspace (d : Doc) (pos count : Nat) : Outcome Unit × Doc := d.delete (Range.new (pos - count) pos)

/-- `AtPosition::replace_to_line_end`, position.rs lines 52-65; `byte_to_line` panics beyond the text. -/
def replaceToLineEnd (d : Doc) (pos : Nat) (t : Str) : Outcome Unit × Doc :=
  if pos > byteLen d.text then (.panic, d)
  else
    let ls := ropeLines d.text
    let i := byteToLine ls pos
    d.replace (Range.new pos (if i + 1 < ls.length then lineToByte ls (i + 1) - 1 else byteLen d.text)) t

/-- `AtPosition::to_line_column`, position.rs lines 83-103. -/
def toLineColumn (d : Doc) (pos : Nat) : Outcome (Nat × Nat) :=
  match toLineCol (ropeLines d.text) pos with
  | some p => .ok p
  | none => .panic

/-- `EditorDocument::at_line`, document_ext.rs lines 26-34: the position. -/
def atLine (d : Doc) (line : Nat) : Outcome Nat :=
  let ls := ropeLines d.text
  if line - 1 ≥ ls.length then .err else .ok (lineToByte ls (line - 1))

/-- `EditorDocument::at_end`, document_ext.rs lines 42-45. -/
def atEnd (d : Doc) : Nat := byteLen d.text

/-- Whether a byte offset is between characters. -/
def boundary (s : Str) (n : Nat) : Bool := byteLen (s.take (byteToChar s n)) == n

/-- `SelectRange::text`, selection.rs lines 121-126; `Rope::byte_slice` panics for reversed ranges, beyond the text and within characters. -/
def selected (d : Doc) (r : Range) : Outcome Str :=
  if r.start ≤ r.fin ∧ r.fin ≤ byteLen d.text ∧ boundary d.text r.start = true ∧ boundary d.text r.fin = true then textRange d.text r else .panic

/-- `SelectRange::wrap_with_tag`, selection.rs lines 39-53. -/
def wrap (d : Doc) (r : Range) (opening closing : Str) : Outcome Unit × Doc :=
  match selected d r with
  | .ok s => d.replace r (opening ++ s ++ closing)
  | .err => (.err, d)
  | .panic => (.panic, d)

/-- Operations one after the other up to the first that fails (`?`). -/
def each {α : Type} (f : Doc → α → Outcome Unit × Doc) : List α → Doc → Outcome Unit × Doc
  | [], d => (.ok (), d)
  | a :: as, d =>
    match f d a with
    | (.ok _, d) => each f as d
    | (o, d) => (o, d)

/-- The lines of the selection, last first: `(start_line..=end_line).rev()`, selection.rs lines 59-60 and 65; `none`: `byte_to_line` panics. -/
def chosen (d : Doc) (r : Range) : Option (List Nat) :=
  if r.start > byteLen d.text ∨ r.fin > byteLen d.text then none
  else
    let ls := ropeLines d.text
    let i := byteToLine ls r.start
    some (List.range' i (byteToLine ls r.fin + 1 - i)).reverse

/-- `SelectRange::indent`, selection.rs lines 57-78. -/
def indent (d : Doc) (r : Range) (spaces : Nat) : Outcome Unit × Doc :=
  match chosen d r with
  | none => (.panic, d)
  | some is => each (fun d p => d.replace (Range.empty p) (List.replicate spaces ' ')) (is.map (lineToByte (ropeLines d.text))) d

/-- The spaces that are removed from a line, selection.rs lines 94-101. -/
def leading (spaces : Nat) (line : Str) : Nat := ((line.take spaces).takeWhile (· == ' ')).length

/-- What is removed from a line, selection.rs lines 90-105. -/
def removal (ls : List Str) (spaces i : Nat) : Option (Nat × Nat) :=
  if 0 < leading spaces (ls.getD i []) then some (lineToByte ls i, leading spaces (ls.getD i [])) else none

/-- `SelectRange::unindent`, selection.rs lines 82-118. -/
def unindent (d : Doc) (r : Range) (spaces : Nat) : Outcome Unit × Doc :=
  match chosen d r with
  | none => (.panic, d)
  | some is => each (fun d (p : Nat × Nat) => d.delete (Range.new p.1 (p.1 + p.2))) (is.filterMap (removal (ropeLines d.text) spaces)) d

end Verif.Cursor
