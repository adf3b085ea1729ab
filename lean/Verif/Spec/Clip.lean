import Verif.Model.Clip
/-!
# What a clip shows
-/
namespace Verif.Spec.Clip
open Verif.Clip (Clip Px)

/-- The pixel's centre lies between the two values, the smaller included. -/
def Within (i : Nat) (a b : Rat) : Prop := min a b ≤ (i : Rat) + 1 / 2 ∧ (i : Rat) + 1 / 2 < max a b

instance (i : Nat) (a b : Rat) : Decidable (Within i a b) := inferInstanceAs (Decidable (_ ∧ _))

/-- The pixel's centre lies in the rectangle of the clip, whichever corners are given. -/
def InRect (k : Clip) (p : Px) : Prop := Within p.1 k.x1 k.x2 ∧ Within p.2 k.y1 k.y2

instance (k : Clip) (p : Px) : Decidable (InRect k p) := inferInstanceAs (Decidable (_ ∧ _))

/-- What a clip shows of a frame. -/
def Shown (k : Clip) (p : Px) : Prop := if k.inverse then ¬ InRect k p else InRect k p

instance (k : Clip) (p : Px) : Decidable (Shown k p) :=
  if h : k.inverse = true then decidable_of_iff (¬ InRect k p) (by unfold Shown; rw [if_pos h])
  else decidable_of_iff (InRect k p) (by unfold Shown; rw [if_neg h])

/-- The strips between neighbouring cuts, all between the same heights. -/
def strips (y1 y2 : Rat) : List Rat → List Clip
  | a :: b :: cuts => ⟨a, y1, b, y2, false⟩ :: strips y1 y2 (b :: cuts)
  | _ => []

/-- The cuts go from left to right. -/
def Rising : List Rat → Prop
  | a :: b :: cuts => a ≤ b ∧ Rising (b :: cuts)
  | _ => True

end Verif.Spec.Clip
