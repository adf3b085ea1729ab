import Verif.Model.Collision
/-!
# Specification: subtitles do not overlap
-/
namespace Verif.Spec.Coll
open Verif.Collision

/-- Two boxes share area. -/
def Overlap (a b : Box) : Prop :=
  (max a.x b.x < min (a.x + a.w) (b.x + b.w)) ∧ (max a.y b.y < min (a.y + a.h) (b.y + b.h))

/-- Two boxes keep a distance of `d`, horizontally or vertically. -/
def Apart (d : Rat) (a b : Box) : Prop :=
  a.x + a.w + d ≤ b.x ∨ b.x + b.w + d ≤ a.x ∨ a.y + a.h + d ≤ b.y ∨ b.y + b.h + d ≤ a.y

/-- The box lies between the top and the bottom of a screen of height `H`. -/
def OnScreen (H : Rat) (a : Box) : Prop := 0 ≤ a.y ∧ a.y + a.h ≤ H

/-- Placing a list of events one after the other; returns the chosen boxes. -/
def placeAll (r : Resolver) : List Ev → List Box × Resolver
  | [] => ([], r)
  | e :: l => ((r.findPosition e).1 :: (placeAll (r.findPosition e).2 l).1, (placeAll (r.findPosition e).2 l).2)

end Verif.Spec.Coll
