import Verif.Model.Layout
import Verif.Spec.Alignment
/-!
# Specification: layout helpers

Of the model the data types are used.
-/
namespace Verif.Spec.Layout
open Verif.Spec.Alignment
open Verif.Segment (Move)

/-- The x coordinate of the alignment point of a box of width `w` whose left edge is at `x`. -/
def pointX (c : Column) (x w : Rat) : Rat :=
  match c with
  | .left => x
  | .centre => x + w / 2
  | .right => x + w

/-- The y coordinate of the alignment point of a box of height `h` whose upper edge is at `y`. -/
def pointY (r : Row) (y h : Rat) : Rat :=
  match r with
  | .top => y
  | .middle => y + h / 2
  | .bottom => y + h

/-- Where the alignment point belongs on a screen of this width with these margins. -/
def homeX (c : Column) (width left right : Rat) : Rat :=
  match c with
  | .left => left
  | .centre => (left + (width - right)) / 2
  | .right => width - right

/-- Where it belongs vertically. -/
def homeY (r : Row) (height margin : Rat) : Rat :=
  match r with
  | .top => margin
  | .middle => height / 2
  | .bottom => height - margin

/-- Where a movement is, `ms` milliseconds into an event; its times in milliseconds. -/
inductive At (x1 x2 : Rat) (t1 t2 ms : Nat) : Rat → Prop where
  | before : ms ≤ t1 → At x1 x2 t1 t2 ms x1
  | after : t2 ≤ ms → t1 < ms → At x1 x2 t1 t2 ms x2
  | between (x : Rat) : t1 ≤ ms → ms ≤ t2 → t1 < t2 → (x - x1) * ((t2 : Rat) - t1) = (x2 - x1) * ((ms : Rat) - t1) → At x1 x2 t1 t2 ms x

/-- Lines put together with a line feed between each and the next. -/
def joined : List (List Char) → List Char
  | [] => []
  | [l] => l
  | l :: rest => l ++ '\n' :: joined rest

end Verif.Spec.Layout
