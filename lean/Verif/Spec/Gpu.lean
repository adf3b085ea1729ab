import Verif.Model.Gpu
/-!
# Pictures composed of bitmaps

From the model only the types of bitmaps, pixels, colours, devices and calls are used.
-/
namespace Verif.Spec.Gpu
open Verif.Gpu (Bitmap Px Colour Device Op)

/-- Pixel `(px, py)` lies within the rectangle of size `w`×`h` at `(x, y)`. -/
def Within (w h : Nat) (x y : Int) (px py : Nat) : Prop := x ≤ px ∧ (px : Int) < x + w ∧ y ≤ py ∧ (py : Int) < y + h

instance : Decidable (Within w h x y px py) := inferInstanceAs (Decidable (_ ∧ _ ∧ _ ∧ _))

/-- The number, row by row, of the pixel of a rectangle of width `w` at `(x, y)` that lies at `(px, py)`. -/
def place (w : Nat) (x y : Int) (px py : Nat) : Nat := ((py : Int) - y).toNat * w + ((px : Int) - x).toNat

/-- The premultiplied colour that a bitmap shows at a pixel of the frame; `none`: the pixel is outside of the bitmap. -/
def shows (px py : Nat) : Bitmap → Option Colour
  | .coverage w h data x y r g b a =>
    if Within w h x y px py then
      let alpha : Rat := (a : Rat) / 255 * ((data.getD (place w x y px py) 0 : Nat) / 255)
      some ⟨(r : Rat) / 255 * alpha, (g : Rat) / 255 * alpha, (b : Rat) / 255 * alpha, alpha⟩
    else none
  | .rgba w h data x y =>
    if Within w h x y px py then
      let i := 4 * place w x y px py
      some ⟨(data.getD i 0 : Nat) / 255, (data.getD (i + 1) 0 : Nat) / 255, (data.getD (i + 2) 0 : Nat) / 255,
        (data.getD (i + 3) 0 : Nat) / 255⟩
    else none

/-- A colour over a pixel, each channel kept as a byte by `store`. -/
def over (store : Rat → Nat) (s : Colour) (d : Px) : Px :=
  ⟨store (s.r + (d.r : Rat) / 255 * (1 - s.a)), store (s.g + (d.g : Rat) / 255 * (1 - s.a)),
    store (s.b + (d.b : Rat) / 255 * (1 - s.a)), store (s.a + (d.a : Rat) / 255 * (1 - s.a))⟩

/-- One bitmap more at a pixel. -/
def add (store : Rat → Nat) (px py : Nat) (d : Px) (b : Bitmap) : Px :=
  match shows px py b with
  | some s => over store s d
  | none => d

/-- The pixel at `(px, py)` of the picture of bitmaps, the first at the bottom, on a transparent frame. -/
def picture (store : Rat → Nat) (bs : List Bitmap) (px py : Nat) : Px := bs.foldl (add store px py) ⟨0, 0, 0, 0⟩

/-- The bytes of a picture, row by row. -/
def bytes (w h : Nat) (pic : Nat → Nat → Px) : List Nat :=
  (List.range h).flatMap fun y => (List.range w).flatMap fun x => [(pic x y).r, (pic x y).g, (pic x y).b, (pic x y).a]

/-- A device with the usual limits. -/
def Usual (dev : Device) : Prop := dev.maxSide = 8192 ∧ dev.maxBuffer = 2 ^ 28 ∧ dev.align = 256

/-- Rounding with 24 bits: whole numbers up to `2 ^ 24` stay, other numbers change by at most one part in `2 ^ 24`, or a
negligible amount near zero. -/
def Faithful (f : Rat → Rat) : Prop :=
  (∀ n : Int, -2 ^ 24 ≤ n → n ≤ 2 ^ 24 → f n = n) ∧
  ∀ q : Rat, -2 ^ 100 ≤ q → q ≤ 2 ^ 100 →
    q - max q (-q) / 2 ^ 24 - 1 / 2 ^ 100 ≤ f q ∧ f q ≤ q + max q (-q) / 2 ^ 24 + 1 / 2 ^ 100

/-- A size that a texture may have. -/
def Size (w h : Nat) : Prop := 1 ≤ w ∧ 1 ≤ h ∧ w ≤ 8192 ∧ h ≤ 8192

/-- A position not too far away. -/
def Near (x y : Int) : Prop := -2 ^ 20 ≤ x ∧ x ≤ 2 ^ 20 ∧ -2 ^ 20 ≤ y ∧ y ≤ 2 ^ 20

/-- A bitmap with as many bytes as its size says, of a usual size and not too far away. -/
def Fitting : Bitmap → Prop
  | .coverage w h data x y _ _ _ _ => Size w h ∧ Near x y ∧ data.length = w * h
  | .rgba w h data x y => Size w h ∧ Near x y ∧ data.length = w * h * 4

/-- The call does not draw the layer. -/
def LeavesLayer : Op → Prop
  | .renderLayer _ _ _ => False
  | _ => True

/-- A byte nearest to a colour channel. -/
def Nearest (store : Rat → Nat) : Prop :=
  ∀ q : Rat, 0 ≤ q → q ≤ 1 → store q ≤ 255 ∧ (store q : Rat) - 1 / 2 ≤ q * 255 ∧ q * 255 ≤ store q + 1 / 2

/-- The bytes of a bitmap are bytes, the pixels of an RGBA bitmap are premultiplied. -/
def Sound : Bitmap → Prop
  | .coverage _ _ data _ _ r g b a => (∀ c ∈ data, c ≤ 255) ∧ r ≤ 255 ∧ g ≤ 255 ∧ b ≤ 255 ∧ a ≤ 255
  | .rgba w h data _ _ => ∀ i, i < w * h →
      data.getD (4 * i) 0 ≤ data.getD (4 * i + 3) 0 ∧ data.getD (4 * i + 1) 0 ≤ data.getD (4 * i + 3) 0 ∧
      data.getD (4 * i + 2) 0 ≤ data.getD (4 * i + 3) 0 ∧ data.getD (4 * i + 3) 0 ≤ 255

end Verif.Spec.Gpu
