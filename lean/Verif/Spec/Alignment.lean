/-!
# Alignment in SSA and ASS

SSA: 1, 2 and 3 are left, centred and right, at the bottom; adding 4 puts the text at the top, adding 8 in the middle.  ASS: the
places of the numbers on the numeric keypad.
-/
namespace Verif.Spec.Alignment

inductive Column where
  | left | centre | right
deriving DecidableEq

inductive Row where
  | bottom | middle | top
deriving DecidableEq

/-- The number of a place on the keypad. -/
def keypad : Row → Column → Nat
  | .bottom, .left => 1 | .bottom, .centre => 2 | .bottom, .right => 3
  | .middle, .left => 4 | .middle, .centre => 5 | .middle, .right => 6
  | .top, .left => 7 | .top, .centre => 8 | .top, .right => 9

/-- The number of a place in SSA. -/
def ssa (r : Row) (c : Column) : Nat :=
  (match c with | .left => 1 | .centre => 2 | .right => 3) + (match r with | .bottom => 0 | .top => 4 | .middle => 8)

end Verif.Spec.Alignment
