import Verif.Model.Paint
/-!
# What turning, stretching and tilting text means

Nothing here uses the functions of the model, only its data.
-/
namespace Verif.Spec.Warp
open Verif
open Verif.Paint (Data Effect Shaped)

/-- The square of the distance of two points. -/
def far (p q : Rat × Rat) : Rat := (p.1 - q.1) * (p.1 - q.1) + (p.2 - q.2) * (p.2 - q.2)

/-- Three points on a line. -/
def Straight (p q r : Rat × Rat) : Prop := (q.1 - p.1) * (r.2 - p.2) = (q.2 - p.2) * (r.1 - p.1)

instance (p q r : Rat × Rat) : Decidable (Straight p q r) := inferInstanceAs (Decidable (_ = _))

/-- Cosine and sine of opposite angles, and of none. -/
structure Trig (cosSin : Rat → Rat × Rat) : Prop where
  zero : cosSin 0 = (1, 0)
  neg : ∀ a, cosSin (-a) = ((cosSin a).1, -(cosSin a).2)
  one : ∀ a, (cosSin a).1 * (cosSin a).1 + (cosSin a).2 * (cosSin a).2 = 1

/-- An effect that does not change where the text is. -/
def Still (e : Effect) : Prop :=
  match e with
  | .rotation .. => False
  | .scale .. => False
  | .shear .. => False
  | _ => True

/-- Where the points of the text lie if nothing moves them. -/
def home (d : Data) (sh : Shaped) (p : Rat × Rat) : Rat × Rat := (d.x + p.1, d.y + sh.baseline + p.2)

/-- The middle of the text, relative to the start of its baseline. -/
def middle (sh : Shaped) : Rat × Rat := (sh.width / 2, sh.height / 2 - sh.baseline)

/-- A point turned counter-clockwise (as seen on the screen, where `y` grows downwards) about a centre. -/
def counterClockwise (cs : Rat × Rat) (c p : Rat × Rat) : Rat × Rat :=
  (c.1 + cs.1 * (p.1 - c.1) + cs.2 * (p.2 - c.2), c.2 - cs.2 * (p.1 - c.1) + cs.1 * (p.2 - c.2))

/-- The same effect on a canvas `k` times as large. -/
def enlargedEffect (k : Rat) : Effect → Effect
  | .rotation x y z (some o) => .rotation x y z (some (k * o.1, k * o.2))
  | e => e

/-- The same layer on a canvas `k` times as large. -/
def enlarged (k : Rat) (d : Data) : Data :=
  { d with
    x := k * d.x
    y := k * d.y
    size := k * d.size
    effects := d.effects.map (enlargedEffect k) }

/-- Its measures. -/
def enlargedShape (k : Rat) (sh : Shaped) : Shaped := ⟨k * sh.width, k * sh.height, k * sh.baseline, k * sh.ascent, k * sh.descent⟩

/-- A point `k` times as far from the origin. -/
def times (k : Rat) (p : Rat × Rat) : Rat × Rat := (k * p.1, k * p.2)

end Verif.Spec.Warp
