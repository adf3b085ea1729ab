import Verif.Model.Doc
/-!
# Line/column conversion

`crates/ass-editor/core/document/text_access.rs` lines 107-166 and
`crates/ass-editor/core/position/builder.rs` lines 96-153.

A rope is given by its list of lines (each with its terminator).  Which characters end a line
depends on ropey's feature flags, so the functions take the list of lines as a parameter;
`ropeLines` is the list for ropey's default features.
-/
namespace Verif.LineCol
open Verif

/-- Single-character line breaks of ropey with `unicode_lines` (CR LF counts once, below). -/
def isBreak (c : Char) : Bool :=
  c == '\n' || c == '\r' || c == '\x0B' || c == '\x0C' || c == '\u0085' || c == ' ' || c == ' '

/-- `Rope::lines` with ropey's default features; never empty, only the last line may be empty. -/
def ropeLines : Str → List Str
  | [] => [[]]
  | c :: cs =>
    if c = '\r' ∧ cs.head? = some '\n' then
      match ropeLines cs with
      | [] => [[c]]
      | l :: ls => (c :: l) :: ls
    else if isBreak c then [c] :: ropeLines cs
    else match ropeLines cs with
      | [] => [[c]]
      | l :: ls => (c :: l) :: ls

/-- `Rope::line_to_byte`. -/
def lineToByte (ls : List Str) (i : Nat) : Nat := byteLen (ls.take i).flatten

/-- `Rope::byte_to_line`: index of the line containing the byte (the last line at the end). -/
def byteToLine : List Str → Nat → Nat
  | [], _ => 0
  | [_], _ => 0
  | l :: l' :: ls, b => if b < byteLen l then 0 else byteToLine (l' :: ls) (b - byteLen l) + 1

/-- Column loop, text_access.rs lines 121-130: characters passed before `off` bytes are reached. -/
def countCols : Str → Nat → Nat
  | [], _ => 0
  | _ :: _, 0 => 0
  | c :: cs, off + 1 => countCols cs (off + 1 - c.utf8Size) + 1

/-- `position_to_line_column` (rope), text_access.rs lines 107-134; `none` is the error. -/
def toLineCol (ls : List Str) (pos : Nat) : Option (Nat × Nat) :=
  if pos > byteLen ls.flatten then none
  else
    let i := byteToLine ls pos
    some (i + 1, countCols (ls.getD i []) (pos - lineToByte ls i) + 1)

/-- `PositionBuilder::build` with a line and a column, builder.rs lines 105-139. -/
def build (ls : List Str) (line col : Nat) : Option Nat :=
  let i := line - 1
  if i ≥ ls.length then none
  else if line = 0 ∨ col = 0 then none
  else
    let l := ls.getD i []
    if l.length < col - 1 then none
    else some (lineToByte ls i + byteLen (l.take (col - 1)))

/-- `PositionBuilder::build` with a line only (end of line), builder.rs lines 140-148. -/
def buildEnd (ls : List Str) (line : Nat) : Option Nat :=
  let i := line - 1
  if i ≥ ls.length then none
  else if i + 1 < ls.length then some (lineToByte ls (i + 1) - 1)
  else some (byteLen ls.flatten)

/-- `position_to_line_column` without ropes, text_access.rs lines 138-166. -/
def plainAux : Str → Nat → Nat → Nat → Nat × Nat
  | [], _, line, col => (line, col)
  | _ :: _, 0, line, col => (line, col)
  | c :: cs, n + 1, line, col =>
    if c = '\n' then plainAux cs (n + 1 - c.utf8Size) (line + 1) 1
    else plainAux cs (n + 1 - c.utf8Size) line (col + 1)

@[inherit_doc plainAux] def toLineColPlain (s : Str) (pos : Nat) : Option (Nat × Nat) :=
  if pos > byteLen s then none else some (plainAux s pos 1 1)

end Verif.LineCol
