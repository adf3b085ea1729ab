import Verif.Model.Blur
/-!
# What blurring means

Nothing here uses the functions of the model, only its pictures and boxes.
-/
namespace Verif.Spec.Blur
open Verif.Blur (Px Image Box)

/-- The weights of a kernel: positive, and the same to both sides. -/
structure Weights (g : Int → Rat) : Prop where
  pos : ∀ x, 0 < g x
  even : ∀ x, g (-x) = g x

/-- The pixel lies in the image. -/
def Image.In (im : Image) (x y : Int) : Prop := 0 ≤ x ∧ x < im.w ∧ 0 ≤ y ∧ y < im.h

/-- Every byte is a byte. -/
def Bytes (im : Image) : Prop :=
  ∀ x y, Image.In im x y → (im.px x y).r ≤ 255 ∧ (im.px x y).g ≤ 255 ∧ (im.px x y).b ≤ 255 ∧ (im.px x y).a ≤ 255

/-- At most `d` apart in both directions. -/
def Near (d : Nat) (x y x' y' : Int) : Prop := x - d ≤ x' ∧ x' ≤ x + d ∧ y - d ≤ y' ∧ y' ≤ y + d

/-- Nothing is there. -/
def clear : Px := ⟨0, 0, 0, 0⟩

/-- Everything within `d` of an edge is transparent. -/
def Padded (d : Nat) (im : Image) : Prop :=
  ∀ x y, Image.In im x y → (im.px x y).a ≠ 0 → d ≤ x ∧ x + d < im.w ∧ d ≤ y ∧ y + d < im.h

/-- `big` shows `im` with its corner at (`dx`, `dy`), and is transparent elsewhere. -/
structure Placed (im : Image) (dx dy : Nat) (big : Image) : Prop where
  fits : im.w + dx ≤ big.w ∧ im.h + dy ≤ big.h
  inside : ∀ x y, Image.In im x y → big.px (x + dx) (y + dy) = im.px x y
  outside : ∀ x y, Image.In big x y → ¬Image.In im (x - dx) (y - dy) → (big.px x y).a = 0

/-- The image seen in a mirror. -/
def mirrored (im : Image) : Image := { im with px := fun x y => im.px (im.w - 1 - x) y }

/-- The image upside down. -/
def upturned (im : Image) : Image := { im with px := fun x y => im.px x (im.h - 1 - y) }

/-- A pixel with colours multiplied by its alpha: no colour exceeds the alpha. -/
def Premultiplied (p : Px) : Prop := p.r ≤ p.a ∧ p.g ≤ p.a ∧ p.b ≤ p.a

/-- The distance of two numbers. -/
def dist (a b : Nat) : Nat := (a - b) + (b - a)

/-- One box lies in another, given by whole edges. -/
def Covers (hint : Int × Int × Int × Int) (left top right bottom : Rat) : Prop :=
  (hint.1 : Rat) ≤ left ∧ (hint.2.1 : Rat) ≤ top ∧ right ≤ (hint.2.2.1 : Rat) ∧ bottom ≤ (hint.2.2.2 : Rat)

end Verif.Spec.Blur
