import Verif.Model.Raster
/-!
# The area of outlines in pixels

From the model only the types of points and segments are used.
-/
namespace Verif.Spec.Raster
open Verif.Raster (Point Seg)

/-- An edge. -/
structure Edge where
  a : Point
  b : Point
deriving DecidableEq

/-- The area, in the pixel from `c` to `c + 1`, right of a line that goes from `x0` to `x1` while it goes down by `h` (up, and the
area counts as negative, if `h` is negative): nothing if the line is right of the pixel, the whole height if it is left of it, the
trapezoid right of it if it is within, and the sum of the areas of its parts. -/
inductive Area (c : Rat) : Rat → Rat → Rat → Rat → Prop where
  | right {x0 x1 h : Rat} : c + 1 ≤ x0 → c + 1 ≤ x1 → Area c x0 x1 h 0
  | left {x0 x1 h : Rat} : x0 ≤ c → x1 ≤ c → Area c x0 x1 h h
  | inside {x0 x1 h : Rat} : c ≤ x0 → x0 ≤ c + 1 → c ≤ x1 → x1 ≤ c + 1 → Area c x0 x1 h (h * ((c + 1 - x0) + (c + 1 - x1)) / 2)
  | split {x0 x1 h : Rat} (t : Rat) {v w : Rat} : 0 ≤ t → t ≤ 1 → Area c x0 (x0 + t * (x1 - x0)) (t * h) v →
      Area c (x0 + t * (x1 - x0)) x1 ((1 - t) * h) w → Area c x0 x1 h (v + w)

/-- A height within the row from `r` to `r + 1`. -/
def within (r y : Rat) : Rat := max r (min y (r + 1))

/-- Where an edge is at a height. -/
def Edge.at (e : Edge) (y : Rat) : Rat := e.a.1 + (y - e.a.2) * ((e.b.1 - e.a.1) / (e.b.2 - e.a.2))

/-- The area, in the pixel `(c, r)`, right of the part of the edge that is in the row of the pixel. -/
def EdgeArea (c r : Rat) (e : Edge) (v : Rat) : Prop :=
  Area c (e.at (within r e.a.2)) (e.at (within r e.b.2)) (within r e.b.2 - within r e.a.2) v

/-- The areas of edges together. -/
inductive Areas (c r : Rat) : List Edge → Rat → Prop where
  | nil : Areas c r [] 0
  | cons {e : Edge} {es : List Edge} {v w : Rat} : EdgeArea c r e v → Areas c r es w → Areas c r (e :: es) (v + w)

/-- The byte for an accumulated area: full from an area of one on, in either direction, and otherwise the nearest. -/
def Byte (a : Rat) (n : Nat) : Prop :=
  n ≤ 255 ∧ (n : Rat) - 1 / 2 ≤ min (max a (-a)) 1 * 255 ∧ min (max a (-a)) 1 * 255 < n + 1 / 2

/-- Edges that follow each other from `p` to `q`. -/
inductive Chain : Point → Point → List Edge → Prop where
  | nil {p : Point} : Chain p p []
  | cons {p q s : Point} {es : List Edge} : Chain q s es → Chain p s (⟨p, q⟩ :: es)

/-- Edges of closed contours. -/
inductive Closed : List Edge → Prop where
  | nil : Closed []
  | append {p : Point} {es fs : List Edge} : Chain p p es → Closed fs → Closed (es ++ fs)

/-- An edge whose ends are between the sides of a tile of width `w`. -/
def Inside (w : Rat) (e : Edge) : Prop := 0 ≤ e.a.1 ∧ e.a.1 ≤ w ∧ 0 ≤ e.b.1 ∧ e.b.1 ≤ w

/-- The point at the fraction `s` of an edge. -/
def Edge.part (e : Edge) (s : Rat) : Point := (e.a.1 + s * (e.b.1 - e.a.1), e.a.2 + s * (e.b.2 - e.a.2))

/-- No point of the edge is within the pixel. -/
def Misses (c r : Rat) (e : Edge) : Prop :=
  ∀ s, 0 ≤ s → s ≤ 1 → ¬ (c < (e.part s).1 ∧ (e.part s).1 < c + 1 ∧ r < (e.part s).2 ∧ (e.part s).2 < r + 1)

/-- How often, counted by direction, edges cross the ray that goes left from the point `(x, y)`: the winding number. -/
def winding (x y : Rat) : List Edge → Int
  | [] => 0
  | e :: es =>
    (if e.a.2 ≤ y ∧ y < e.b.2 ∧ e.at y < x then 1 else if e.b.2 ≤ y ∧ y < e.a.2 ∧ e.at y < x then -1 else 0) + winding x y es

/-- The point at `t` of a quadratic curve. -/
def quadratic (a c b : Point) (t : Rat) : Point :=
  ((1 - t) ^ 2 * a.1 + 2 * (1 - t) * t * c.1 + t ^ 2 * b.1, (1 - t) ^ 2 * a.2 + 2 * (1 - t) * t * c.2 + t ^ 2 * b.2)

/-- The point at `t` of a cubic curve. -/
def cubical (a c d b : Point) (t : Rat) : Point :=
  ((1 - t) ^ 3 * a.1 + 3 * (1 - t) ^ 2 * t * c.1 + 3 * (1 - t) * t ^ 2 * d.1 + t ^ 3 * b.1,
   (1 - t) ^ 3 * a.2 + 3 * (1 - t) ^ 2 * t * c.2 + 3 * (1 - t) * t ^ 2 * d.2 + t ^ 3 * b.2)

/-- The edges between `n + 1` evenly spaced points of a curve. -/
def chords (f : Rat → Point) (n : Nat) : List Edge := (List.range n).map fun (i : Nat) => ⟨f ((i : Rat) / n), f (((i : Rat) + 1) / n)⟩

/-- The square of the distance of two points. -/
def gap (p q : Point) : Rat := (p.1 - q.1) ^ 2 + (p.2 - q.2) ^ 2

/-- Every point of the curve is near, by the square of the distance, to the chord that belongs to it. -/
def Fine (q : Rat) (f : Rat → Point) (n : Nat) : Prop :=
  ∀ i s, i < n → 0 ≤ s → s ≤ 1 → gap (f (((i : Rat) + s) / n)) ((⟨f ((i : Rat) / n), f (((i : Rat) + 1) / n)⟩ : Edge).part s) ≤ q

/-- The edges of an outline: straight lines as they are, curves by chords no farther from them than a
fifth of a pixel, three fifths for cubic curves, or by 64 and 96 chords; contours closed.  `start` is where the contour began,
`cur` where the last segment ended; `none` before the first contour. -/
inductive Outline : Option (Point × Point) → List Seg → List Edge → Prop where
  | empty : Outline none [] []
  | ending {s p : Point} : Outline (some (s, p)) [] [⟨p, s⟩]
  | first {q : Point} {ss : List Seg} {es : List Edge} : Outline (some (q, q)) ss es → Outline none (.moveTo q :: ss) es
  | next {s p q : Point} {ss : List Seg} {es : List Edge} : Outline (some (q, q)) ss es →
      Outline (some (s, p)) (.moveTo q :: ss) (⟨p, s⟩ :: es)
  | straight {s p q : Point} {ss : List Seg} {es : List Edge} : Outline (some (s, q)) ss es →
      Outline (some (s, p)) (.lineTo q :: ss) (⟨p, q⟩ :: es)
  | quad {s p c q : Point} {ss : List Seg} {es : List Edge} (n : Nat) : 1 ≤ n → (n = 64 ∨ Fine (1 / 25) (quadratic p c q) n) → Outline (some (s, q)) ss es →
      Outline (some (s, p)) (.quadTo c q :: ss) (chords (quadratic p c q) n ++ es)
  | cubic {s p c d q : Point} {ss : List Seg} {es : List Edge} (n : Nat) : 1 ≤ n → (n = 96 ∨ Fine (9 / 25) (cubical p c d q) n) → Outline (some (s, q)) ss es →
      Outline (some (s, p)) (.cubicTo c d q :: ss) (chords (cubical p c d q) n ++ es)
  | back {s p : Point} {ss : List Seg} {es : List Edge} : Outline (some (s, s)) ss es →
      Outline (some (s, p)) (.close :: ss) (⟨p, s⟩ :: es)

end Verif.Spec.Raster
