import Verif.Model.Place
/-!
# Specification: placing lines of text
-/
namespace Verif.Spec.Place
open Verif
open Verif.Place (Run Pipe Ev Style)

/-- A part of a stretch: its beginning, its middle or its end. -/
inductive Part where
  | first | middle | last
deriving DecidableEq

/-- The point of a stretch of length `n` that begins at `x`. -/
def Part.of (p : Part) (x n : Rat) : Rat :=
  match p with
  | .first => x
  | .middle => x + n / 2
  | .last => x + n

/-- Alignments are the keys of a number pad: column and row. -/
inductive Numpad : Nat → Part → Part → Prop where
  | bl : Numpad 1 .first .last
  | bc : Numpad 2 .middle .last
  | br : Numpad 3 .last .last
  | ml : Numpad 4 .first .middle
  | mc : Numpad 5 .middle .middle
  | mr : Numpad 6 .last .middle
  | tl : Numpad 7 .first .first
  | tc : Numpad 8 .middle .first
  | tr : Numpad 9 .last .first

/-- The margin in force: the event's if it is a number other than zero, otherwise the style's. -/
def MarginIs (num : Str → Option Rat) (ev : Str) (style : Str) (m : Rat) : Prop :=
  (∃ n, num ev = some n ∧ n ≠ 0 ∧ m = n) ∨
  ((num ev = none ∨ num ev = some 0) ∧ (num style = some m ∨ (num style = none ∧ m = 0)))

/-- The alignment of a run: its tag's or the style's. -/
def Aligned (a : Nat) (s : Style) (r : Run) : Prop := r.align = some a ∨ (r.align = none ∧ s.alignment = (Nat.repr a).toList)

/-- A point of the script on the frame.  The script's coordinates are those of its layout resolution if it has one. -/
def OnFrame (p : Pipe) (q : Rat × Rat) (at_ : Rat × Rat) : Prop :=
  at_.1 * (p.layout.getD (p.resX, p.resY)).1 = q.1 * (p.w : Rat) ∧ at_.2 * (p.layout.getD (p.resX, p.resY)).2 = q.2 * (p.h : Rat)

/-- Where a run is pinned by its `\\pos` or `\\move`; a movement without times lasts as long as the event. -/
inductive Pinned (p : Pipe) (e : Ev) (time : Nat) (r : Run) (at_ : Rat × Rat) : Prop where
  | pos {q : Rat × Rat} : r.pos = some q → OnFrame p q at_ → Pinned p e time r at_
  | before {m : Segment.Move} {a b : Nat} : r.pos = none → r.move = some m →
      (a, b) = (if m.t1 = 0 ∧ m.t2 = 0 then (e.start, e.stop) else (e.start + m.t1, e.start + m.t2)) →
      time ≤ a → OnFrame p (m.x1, m.y1) at_ → Pinned p e time r at_
  | after {m : Segment.Move} {a b : Nat} : r.pos = none → r.move = some m →
      (a, b) = (if m.t1 = 0 ∧ m.t2 = 0 then (e.start, e.stop) else (e.start + m.t1, e.start + m.t2)) →
      a < time → b ≤ time → OnFrame p (m.x2, m.y2) at_ → Pinned p e time r at_
  | between {m : Segment.Move} {a b : Nat} {k : Rat} : r.pos = none → r.move = some m →
      (a, b) = (if m.t1 = 0 ∧ m.t2 = 0 then (e.start, e.stop) else (e.start + m.t1, e.start + m.t2)) →
      a < time → time < b → k * ((b : Rat) - (a : Rat)) = (time : Rat) - (a : Rat) →
      OnFrame p (m.x1 + (m.x2 - m.x1) * k, m.y1 + (m.y2 - m.y1) * k) at_ → Pinned p e time r at_

/-- What the pen advances over a run. -/
def step (r : Run) : Rat := r.advance * r.fsx

/-- The length of a line. -/
def len (rs : List Run) : Rat := (rs.map step).sum

/-- The runs follow one another from the left edge `x` on. -/
def Follow : Rat → List Run → List (Rat × Rat) → Prop
  | _, [], [] => True
  | x, r :: rs, p :: ps => p.1 = x ∧ Follow (x + step r) rs ps
  | _, _, _ => False

/-- Runs are measured as they are drawn: what the first pass measures is what the pen advances, and a single run is not scaled. -/
def Measured (rs : List Run) : Prop := (∀ r ∈ rs, r.measure = step r) ∧ ∀ r, rs = [r] → r.width = step r

end Verif.Spec.Place
