import Verif.Spec.FormatDoc
/-!
# Specification: what becomes of the text of an event in SRT and WebVTT
-/
namespace Verif.Spec.ExportMarkup
open Verif.Spec.FormatDoc

/-- A piece of the text of an event: a character or a switch, a line break, an override block. -/
inductive Piece
  | tok (t : Tok) | hard | soft | block (body : List Char)
deriving DecidableEq, Repr

/-- How it is written in the event. -/
def Piece.ass : Piece → List Char
  | tok t => t.ass
  | hard => ['\\', 'N']
  | soft => ['\\', 'n']
  | block b => '{' :: b ++ ['}']

/-- What becomes of it in SRT: switches become tags, breaks line feeds, `{\c}` the end of a font tag, every other block
disappears. -/
def Piece.srt : Piece → List Char
  | tok t => t.html
  | hard => ['\n']
  | soft => ['\n']
  | block b => if b = "\\c".toList then "</font>".toList else []

/-- The same in WebVTT, where `{\fn}` ends a voice. -/
def Piece.vtt : Piece → List Char
  | tok t => t.html
  | hard => ['\n']
  | soft => ['\n']
  | block b => if b = "\\c".toList then "</c>".toList else if b = "\\fn".toList then "</v>".toList else []

/-- The text lacks a word. -/
def Lacks (p s : List Char) : Prop := ∀ a b, s ≠ a ++ p ++ b

/-- The text is not the name of a switch in the list with `1` or `0`. -/
def NotSwitch (l : List Sw) (b : List Char) : Prop := ∀ x ∈ l, b ≠ ['\\', x.letter, '1'] ∧ b ≠ ['\\', x.letter, '0']

/-- Pieces as they are meant: a character is not a brace that opens nor a backslash, a block has no braces and no breaks in
it and is not a switch. -/
def Piece.Ok (l : List Sw) : Piece → Prop
  | tok (.ch c) => c ≠ '{' ∧ c ≠ '\\'
  | tok (.on x) => x ∈ l
  | tok (.off x) => x ∈ l
  | hard => True
  | soft => True
  | block b => '{' ∉ b ∧ '}' ∉ b ∧ Lacks "\\N".toList b ∧ Lacks "\\n".toList b ∧ NotSwitch l b

/-- For WebVTT a block either has no parenthesis, or neither a font nor a colour and at most one position, which is complete. -/
def Piece.Closed : Piece → Prop
  | block b => '(' ∉ b ∨ Lacks "\\fn".toList b ∧ Lacks "\\c&H".toList b ∧
      (Lacks "\\pos(".toList b ∨ ∃ p x y q, b = p ++ "\\pos(".toList ++ x ++ ",".toList ++ y ++ ")".toList ++ q ∧
        Lacks "\\pos(".toList p ∧ Lacks "\\pos(".toList q ∧ x ≠ [] ∧ ',' ∉ x ∧ y ≠ [] ∧ ')' ∉ y)
  | _ => True

/-- A subtitle: when it is shown, and the pieces of its text. -/
structure Line where
  start : Time
  stop : Time
  text : List Piece

/-- `Shows evs l`: the Dialogue events are these lines, in this order; other events may stand between them. -/
inductive Shows : List Verif.SrtDoc.Ev → List Line → Prop
  | nil : Shows [] []
  | other (e evs l) (he : e.dialogue = false) (h : Shows evs l) : Shows (e :: evs) l
  | cons (x evs l) (h : Shows evs l) : Shows (⟨true, x.start.ass, x.stop.ass, x.text.flatMap Piece.ass⟩ :: evs) (x :: l)

/-- Times that can be written, pieces as they are meant. -/
structure Line.Ok (sw : List Sw) (x : Line) : Prop where
  start : x.start.Ok ∧ x.start.Given
  stop : x.stop.Ok ∧ x.stop.Given
  text : ∀ p ∈ x.text, p.Ok sw

/-- The file: number, times and text of each, and a blank line. -/
def entries (time : Time → List Char) (piece : Piece → List Char) : Nat → List Line → List Char
  | _, [] => []
  | n, x :: l => Nat.toDigits 10 n ++ "\n".toList ++ time x.start ++ " --> ".toList ++ time x.stop ++ "\n".toList ++
      x.text.flatMap piece ++ "\n\n".toList ++ entries time piece (n + 1) l

end Verif.Spec.ExportMarkup
