import Verif.Model.LineBreaks
/-!
# Line breaks of a text

Of the model only the type `Kind` of breaks is used.
-/
namespace Verif.Spec.LineBreaks
open Verif.LineBreaks (Kind)

/-- What a text consists of: a character other than a backslash, a break, a hard space, or a backslash with a character that means
nothing special. -/
inductive Piece where
  | char (c : Char)
  | brk (k : Kind)
  | space
  | other (c : Char)

def Piece.Ok : Piece → Prop
  | .char c => c ≠ '\\'
  | .other c => c ≠ 'N' ∧ c ≠ 'n' ∧ c ≠ 'h'
  | _ => True

/-- How it is written. -/
def Piece.source : Piece → List Char
  | .char c => [c]
  | .brk .hard => ['\\', 'N']
  | .brk .soft => ['\\', 'n']
  | .space => ['\\', 'h']
  | .other c => ['\\', c]

/-- What is shown. -/
def Piece.shown : Piece → List Char
  | .char c => [c]
  | .brk _ => ['\n']
  | .space => ['\u00A0']
  | .other c => ['\\', c]

/-- What is left of it in a drawing. -/
def Piece.drawn : Piece → List Char
  | .char c => [c]
  | .other c => ['\\', c]
  | _ => []

def source (ps : List Piece) : List Char := ps.flatMap Piece.source
def shown (ps : List Piece) : List Char := ps.flatMap Piece.shown
def drawn (ps : List Piece) : List Char := ps.flatMap Piece.drawn

/-- Number of bytes in UTF-8. -/
def bytes (s : List Char) : Nat := (s.map Char.utf8Size).sum

/-- A piece stands at a byte position of the shown text. -/
def StandsAt (ps : List Piece) (p : Piece) (pos : Nat) : Prop := ∃ a b, ps = a ++ p :: b ∧ pos = bytes (shown a)

/-- Number of ends of line in a text. -/
def newlines (s : List Char) : Nat := s.count '\n'

end Verif.Spec.LineBreaks
