import Verif.Model.Dirty
/-!
# Specification: dirty regions and visible pixels
-/
namespace Verif.Spec.Drt
open Verif Verif.Dirty

/-- Pixel `(x, y)` belongs to the region. -/
def In (r : Reg) (x y : Nat) : Prop := r.x ≤ x ∧ x < r.x + r.w ∧ r.y ≤ y ∧ y < r.y + r.h

/-- The region's far edges are 32-bit coordinates. -/
def Fits (r : Reg) : Prop := r.x + r.w < lim ∧ r.y + r.h < lim

/-- Report a list of changes one after the other. -/
def addAll : List Reg → List Reg → Outcome (List Reg)
  | regs, [] => .ok regs
  | regs, n :: l =>
    match addRegion regs n with
    | .ok regs' => addAll regs' l
    | _ => .panic

/-- The pixel is inside the pixmap and not fully transparent. -/
def Visible (p : Pixmap) (x y : Int) : Prop := 0 ≤ x ∧ x < p.w ∧ 0 ≤ y ∧ y < p.h ∧ (p.px x y).a ≠ 0

/-- The pixel lies in the noted bounding box (right and lower edge included, as the scan reads them). -/
def InHint (hint : Option Corners) (x y : Int) : Prop :=
  ∀ c, hint = some c → c.x0 ≤ x ∧ x ≤ c.x1 ∧ c.y0 ≤ y ∧ y ≤ c.y1

end Verif.Spec.Drt
