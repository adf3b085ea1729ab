import Verif.Model.Inspector
import Verif.Spec.Analyzer
/-!
# Pixels and stretches of a line
-/
namespace Verif.Spec.Inspector
open Verif.Analyzer (Frame)
open Verif.Inspector (Pixel Segment)
open Verif.Spec.Analyzer (channel)

/-- The pixel of the frame at a place. -/
def Is (f : Frame) (x y : Nat) (p : Pixel) : Prop :=
  x < f.w ∧ y < f.h ∧ p.x = x ∧ p.y = y ∧ channel f 0 (x, y) = some p.r ∧ channel f 1 (x, y) = some p.g ∧ channel f 2 (x, y) = some p.b ∧
    channel f 3 (x, y) = some p.a

/-- Two values differ by at most `t`. -/
def Within (t a b : Nat) : Prop := a ≤ b + t ∧ b ≤ a + t

/-- The colours differ by at most 30 in each channel, opacity aside. -/
def Near (p q : Pixel) : Prop := Within 30 p.r q.r ∧ Within 30 p.g q.g ∧ Within 30 p.b q.b

/-- A stretch of a line: the pixels from its first to its last place, all visible and near the first one. -/
def Stretch (f : Frame) (y : Nat) (s : Segment) : Prop :=
  s.y = y ∧ s.start ≤ s.stop ∧ s.pixels.length = s.stop + 1 - s.start ∧
    (∀ i p, s.pixels[i]? = some p → Is f (s.start + i) y p ∧ 0 < p.a) ∧ ∀ p q, s.pixels.head? = some p → q ∈ s.pixels → Near p q

/-- The average of each channel, rounded down. -/
def Averaged (s : Segment) : Prop :=
  s.avg = [(s.pixels.map (·.r)).sum / s.pixels.length, (s.pixels.map (·.g)).sum / s.pixels.length,
    (s.pixels.map (·.b)).sum / s.pixels.length, (s.pixels.map (·.a)).sum / s.pixels.length]

end Verif.Spec.Inspector
