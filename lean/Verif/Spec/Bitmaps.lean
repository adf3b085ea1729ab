import Verif.Model.Bitmaps
import Verif.Spec.Dirty
/-!
# Specification: what a list of bitmaps shows
-/
namespace Verif.Spec.Btm
open Verif Verif.Dirty Verif.Spec.Drt Verif.Bitmaps

/-- The two pictures are the same inside the frame. -/
def Same (p q : Pixmap) : Prop :=
  p.w = q.w ∧ p.h = q.h ∧ ∀ x y, 0 ≤ x → x < p.w → 0 ≤ y → y < p.h → p.px x y = q.px x y

/-- Nothing is on the picture. -/
def Empty (p : Pixmap) : Prop := ∀ x y, 0 ≤ x → x < p.w → 0 ≤ y → y < p.h → p.px x y = ⟨0, 0⟩

/-- Painting depends on what is in the frame, keeps its size, and leaves pixels without opacity without colour. -/
structure Paints (draw : Pixmap → Pixmap) : Prop where
  size : ∀ p, (draw p).w = p.w ∧ (draw p).h = p.h
  local_ : ∀ p q, Same p q → Same (draw p) (draw q)
  plain : ∀ p, (∀ x y, (p.px x y).a = 0 → p.px x y = ⟨0, 0⟩) → ∀ x y, ((draw p).px x y).a = 0 → (draw p).px x y = ⟨0, 0⟩

/-- The bitmap shows exactly the visible part of the picture. -/
def ShowsPicture (p : Pixmap) (b : Bitmap) : Prop :=
  0 ≤ b.x ∧ 0 ≤ b.y ∧ b.x + b.w ≤ p.w ∧ b.y + b.h ≤ p.h ∧
  ∀ x y, 0 ≤ x → x < p.w → 0 ≤ y → y < p.h →
    if b.x ≤ x ∧ x < b.x + b.w ∧ b.y ≤ y ∧ y < b.y + b.h then b.px (x - b.x) (y - b.y) = p.px x y else p.px x y = ⟨0, 0⟩

/-- What the list should have for a layer on a frame of the size: its shapes, its bitmap, or what it paints on an empty frame. -/
inductive Shows {κ : Type} (w h : Int) : Layer κ → List (Out κ) → Prop where
  | shapes (bs : List (Out κ)) : Shows w h (.shapes bs) bs
  | tile (b : Out κ) (draw : Pixmap → Pixmap) : Shows w h (.tile b draw) [b]
  | nothing (boxes : List Corners) (draw : Pixmap → Pixmap) : Empty (draw (blank w h)) → Shows w h (.drawn boxes draw) []
  | picture (boxes : List Corners) (draw : Pixmap → Pixmap) (b : Bitmap) : ShowsPicture (draw (blank w h)) b →
      Shows w h (.drawn boxes draw) [.pixels b]

/-- One part of the list for each layer, in order. -/
inductive ShowsAll {κ : Type} (w h : Int) : List (Layer κ) → List (Out κ) → Prop where
  | nil : ShowsAll w h [] []
  | cons (l : Layer κ) (out : List (Out κ)) (ls : List (Layer κ)) (rest : List (Out κ)) :
      Shows w h l out → ShowsAll w h ls rest → ShowsAll w h (l :: ls) (out ++ rest)

/-- The layer paints, and what it paints on an empty frame is inside the boxes it notes, if it notes any. -/
def Sound {κ : Type} (w h : Int) : Layer κ → Prop
  | .shapes _ => True
  | .tile _ draw => Paints draw
  | .drawn boxes draw => Paints draw ∧
      (boxes ≠ [] → ∀ x y, Visible (draw (blank w h)) x y → ∃ c ∈ boxes, c.x0 ≤ x ∧ x ≤ c.x1 ∧ c.y0 ≤ y ∧ y ≤ c.y1)
  | .fails => False

/-- Painting the layer over a frame is the same as compositing, over the frame, what it paints on an empty one. -/
def Flat {κ : Type} (comp : Out κ → Pixmap → Pixmap) (w h : Int) : Layer κ → Prop
  | .shapes _ => True
  | .tile b draw => ∀ p, p.w = w → p.h = h → Same (draw p) (comp b p)
  | .drawn _ draw =>
      (Empty (draw (blank w h)) → ∀ p, p.w = w → p.h = h → Same (draw p) p) ∧
      ∀ b, ShowsPicture (draw (blank w h)) b → ∀ p, p.w = w → p.h = h → Same (draw p) (comp (.pixels b) p)
  | .fails => False

/-- A point beyond a corner at the origin, from which the two edges of a path go to the left with a half angle of sine `s` and cosine `c`,
is painted by a stroke of the width that is joined to a point there. -/
def InTip (s c width x y : Rat) : Prop := 0 ≤ x ∧ s * x + c * y ≤ width / 2 ∧ s * x - c * y ≤ width / 2

end Verif.Spec.Btm
