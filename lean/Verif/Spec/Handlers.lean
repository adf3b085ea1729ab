import Verif.Spec.EventCmd
import Verif.Spec.InfoCmd
import Verif.Spec.Time
import Verif.Spec.Color
import Verif.Spec.Float
/-!
# Specification: arguments of override tags
-/
namespace Verif.Spec.Args
open Verif.Spec Verif.Spec.EventCmd
open Verif.Spec.InfoCmd (Stripped)

/-- At least one decimal digit. -/
def Digits (s : List Char) : Prop := s ≠ [] ∧ ∀ c ∈ s, c.isDigit = true

/-- A decimal number: a sign or none, digits, and possibly a point with digits. -/
def Number (s : List Char) : Prop :=
  ∃ sign ds frac, s = sign ++ ds ++ frac ∧ (sign = [] ∨ sign = ['-'] ∨ sign = ['+']) ∧ Digits ds ∧
    (frac = [] ∨ ∃ fs, frac = '.' :: fs ∧ Digits fs)

/-- Something with blanks around it. -/
def Padded (P : List Char → Prop) (s : List Char) : Prop := ∃ w, Stripped s w ∧ P w

/-- Something in parentheses. -/
def Parens (P : List Char → Prop) (s : List Char) : Prop := ∃ t, s = '(' :: t ++ [')'] ∧ P t

/-- The pieces meet the conditions one by one, with blanks around them, and contain no comma. -/
def EachOne : List (List Char → Prop) → List (List Char) → Prop
  | [], [] => True
  | P :: Ps, p :: ps => ',' ∉ p ∧ Padded P p ∧ EachOne Ps ps
  | _, _ => False

/-- Items separated by commas, each with blanks around it. -/
def Items (Ps : List (List Char → Prop)) (s : List Char) : Prop := ∃ parts, s = csv parts ∧ EachOne Ps parts

/-- `&H`, hexadecimal digits, `&`. -/
def Hex (n : Nat) (s : List Char) : Prop :=
  ∃ ds, s = '&' :: 'H' :: ds ++ ['&'] ∧ ds.length = n ∧ ∀ c ∈ ds, ∃ v, hexDigit c = some v

/-- An unsigned number up to `m`. -/
def UpTo (m : Nat) (s : List Char) : Prop := ∃ v, U32Text s v ∧ v ≤ m

/-- A time that is not negative and fits 31 bits (`-0` is allowed). -/
def NonNeg (s : List Char) : Prop :=
  ∃ ds v, Numeral ds v ∧ ((v < 2 ^ 31 ∧ (s = ds ∨ s = '+' :: ds)) ∨ (v = 0 ∧ s = '-' :: ds))

/-- A font weight: 100, 200, … 900. -/
def Weight (s : List Char) : Prop := ∃ v, U32Text s v ∧ ∃ k, 1 ≤ k ∧ k ≤ 9 ∧ v = 100 * k

/-- One of some words. -/
def OneOf (l : List String) (s : List Char) : Prop := ∃ w ∈ l, s = w.toList

/-- What the built-in handlers document. -/
def documented : List (String × (List Char → Prop)) :=
  [("b", Padded (fun s => OneOf ["", "0", "1"] s ∨ Weight s)),
   ("i", Padded (OneOf ["", "0", "1"])), ("u", Padded (OneOf ["", "0", "1"])), ("s", Padded (OneOf ["", "0", "1"])),
   ("be", Padded (OneOf ["0", "1"])),
   ("a", Padded (OneOf ["1", "2", "3", "5", "6", "7", "9", "10", "11"])),
   ("an", Padded (OneOf ["1", "2", "3", "4", "5", "6", "7", "8", "9"])),
   ("q", Padded (OneOf ["0", "1", "2", "3"])),
   ("n", Padded (OneOf [""])), ("N", Padded (OneOf [""])), ("h", Padded (OneOf [""])),
   ("k", Padded (UpTo (2 ^ 32 - 1))), ("kf", Padded (UpTo (2 ^ 32 - 1))), ("ko", Padded (UpTo (2 ^ 32 - 1))),
   ("kt", Padded (UpTo (2 ^ 32 - 1))), ("fe", Padded (UpTo (2 ^ 32 - 1))),
   ("fn", Padded (· ≠ [])), ("r", fun _ => True),
   ("fr", Padded Number), ("frz", Padded Number), ("frx", Padded Number), ("fry", Padded Number),
   ("fscx", Padded Number), ("fscy", Padded Number), ("fax", Padded Number), ("fay", Padded Number),
   ("fsp", Padded Number),
   ("c", Padded (Hex 6)), ("1c", Padded (Hex 6)), ("2c", Padded (Hex 6)), ("3c", Padded (Hex 6)),
   ("4c", Padded (Hex 6)),
   ("alpha", Padded (Hex 2)), ("1a", Padded (Hex 2)), ("2a", Padded (Hex 2)), ("3a", Padded (Hex 2)),
   ("4a", Padded (Hex 2)),
   ("pos", Items [Number, Number]),
   ("move", fun s => Items [Number, Number, Number, Number] s ∨
      Items [Number, Number, Number, Number, Number, Number] s),
   ("org", Padded (Parens (Items [Number, Number]))),
   ("fad", Padded (Parens (Items [UpTo (2 ^ 32 - 1), UpTo (2 ^ 32 - 1)]))),
   ("fade", Padded (Parens (Items [UpTo 255, UpTo 255, UpTo 255, NonNeg, NonNeg, NonNeg, NonNeg]))),
   ("t", Padded (Parens (Padded (· ≠ [])))),
   ("clip", Padded (Parens (fun t => Items [Number, Number, Number, Number] t ∨
      (t.count ',' ≠ 3 ∧ ∃ c ∈ t, c ∈ "mnlbspc".toList)))),
   ("fs", Padded Float.AboveZero), ("bord", Padded Float.NotBelowZero), ("shad", Padded Float.NotBelowZero)]

end Verif.Spec.Args
