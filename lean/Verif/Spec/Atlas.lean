import Verif.Model.Atlas
/-!
# Specification: texture atlas
-/
namespace Verif.Spec.Atl
open Verif Verif.Atlas

/-- Pixel `(px, py)` belongs to the region. -/
def Covers (r : Region) (px py : Nat) : Prop := r.x ≤ px ∧ px < r.x + r.w ∧ r.y ≤ py ∧ py < r.y + r.h

/-- No pixel belongs to both. -/
def Disjoint (a b : Region) : Prop := ∀ px py, ¬ (Covers a px py ∧ Covers b px py)

/-- Every pixel of the region is a pixel of a `W × H` atlas. -/
def InBounds (W H : Nat) (r : Region) : Prop := ∀ px py, Covers r px py → px < W ∧ py < H

/-- Run allocation requests, collecting the regions handed out. -/
def run : List (Nat × Nat) → Atlas → Outcome (List Region × Atlas)
  | [], a => .ok ([], a)
  | (w, h) :: l, a =>
    match allocate a w h with
    | .panic => .panic
    | .err => .err
    | .ok (none, a') => run l a'
    | .ok (some r, a') =>
      match run l a' with
      | .ok (rs, a'') => .ok (r :: rs, a'')
      | o => o

/-- Byte `c` (0–3) of pixel `(px, py)` of the atlas. -/
def pixel (a : Atlas) (px py c : Nat) : Nat := a.data ((py * a.width + px) * 4 + c)

end Verif.Spec.Atl
