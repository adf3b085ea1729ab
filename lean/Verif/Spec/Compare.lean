import Verif.Model.Compare
/-!
# What a comparison of two pictures should say

Only the types of pixels, pictures, bitmaps and reports are taken from the model.
-/
namespace Verif.Spec.Compare
open Verif.Compare (Px Pic Diff Image)

/-- The distance of two numbers. -/
def dist (x y : Nat) : Nat := max x y - min x y

/-- How much two pixels differ: the mean of the distances of their four bytes. -/
def differ (p q : Px) : Rat := ((dist p.r q.r + dist p.g q.g + dist p.b q.b + dist p.a q.a : Nat) : Rat) / 4

/-- The place lies in both pictures. -/
def InBoth (a b : Pic) (x y : Nat) : Prop := x < a.w ∧ x < b.w ∧ y < a.h ∧ y < b.h

/-- In the order in which one reads: row by row. -/
def Reads (p q : Diff) : Prop := p.y < q.y ∨ (p.y = q.y ∧ p.x < q.x)

/-- `f 0 + … + f (n - 1)`. -/
def sum (f : Nat → Rat) : Nat → Rat
  | 0 => 0
  | n + 1 => sum f n + f n

/-- The pictures are the same. -/
def Same (a b : Pic) : Prop := a.w = b.w ∧ a.h = b.h ∧ ∀ x y, x < a.w → y < a.h → a.px x y = b.px x y

/-- The bitmap covers the pixel, with this strength (coverage times opacity, in 255ths). -/
def Covers (i : Image) (x y : Nat) (sa : Nat) : Prop :=
  ∃ row col, row < i.h ∧ col < i.w ∧ i.y + row = y ∧ i.x + col = x ∧ sa = i.cov row col * (255 - i.alpha) / 255

/-- A pixel is made of bytes. -/
def Bytes (p : Px) : Prop := p.r < 256 ∧ p.g < 256 ∧ p.b < 256 ∧ p.a < 256

end Verif.Spec.Compare
