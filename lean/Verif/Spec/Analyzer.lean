import Verif.Model.Analyzer
/-!
# Areas of visible pixels
-/
namespace Verif.Spec.Analyzer
open Verif.Analyzer (Frame Region)

/-- A channel (0 red, 1 green, 2 blue, 3 alpha) of the pixel at column `p.1` and row `p.2`. -/
def channel (f : Frame) (c : Nat) (p : Nat × Nat) : Option Nat := f.px[(p.2 * f.w + p.1) * 4 + c]?

/-- The pixel is in the frame and not fully transparent. -/
def Visible (f : Frame) (p : Nat × Nat) : Prop := p.1 < f.w ∧ p.2 < f.h ∧ ∃ a, channel f 3 p = some a ∧ 0 < a

/-- Side by side, or one above the other. -/
def Touch (p q : Nat × Nat) : Prop :=
  (p.2 = q.2 ∧ (p.1 + 1 = q.1 ∨ q.1 + 1 = p.1)) ∨ (p.1 = q.1 ∧ (p.2 + 1 = q.2 ∨ q.2 + 1 = p.2))

/-- There is a path of visible pixels from the one to the other. -/
inductive Joined (f : Frame) (p : Nat × Nat) : Nat × Nat → Prop
  | here : Visible f p → Joined f p p
  | next {q r : Nat × Nat} : Joined f p q → Touch q r → Visible f r → Joined f p r

/-- The pixels joined to `p`, each once. -/
def Area (f : Frame) (p : Nat × Nat) (pts : List (Nat × Nat)) : Prop := pts.Nodup ∧ ∀ q, q ∈ pts ↔ Joined f p q

/-- More than ten pixels in the area. -/
def Big (f : Frame) (p : Nat × Nat) : Prop := ∃ pts, Area f p pts ∧ 10 < pts.length

/-- Earlier in reading order. -/
def Before (p q : Nat × Nat) : Prop := p.2 < q.2 ∨ (p.2 = q.2 ∧ p.1 < q.1)

/-- The first pixel of its area in reading order. -/
def First (f : Frame) (p : Nat × Nat) : Prop := Visible f p ∧ ∀ q, Joined f p q → q = p ∨ Before p q

/-- `m` is the least of the values. -/
def Least (l : List Nat) (m : Nat) : Prop := m ∈ l ∧ ∀ x ∈ l, m ≤ x

/-- `m` is the greatest of the values. -/
def Most (l : List Nat) (m : Nat) : Prop := m ∈ l ∧ ∀ x ∈ l, x ≤ m

/-- The record describes the area of the pixel: its size, the smallest box around it and the average of each channel, rounded
down. -/
def Describes (f : Frame) (p : Nat × Nat) (r : Region) : Prop :=
  ∃ pts, Area f p pts ∧ r.count = pts.length ∧ Least (pts.map (·.1)) r.minX ∧ Least (pts.map (·.2)) r.minY ∧
    Most (pts.map (·.1)) r.maxX ∧ Most (pts.map (·.2)) r.maxY ∧
    r.avg = [0, 1, 2, 3].map (fun c => ((pts.map (fun q => (channel f c q).getD 0)).sum) / pts.length)

/-- Two lists of the same length whose members correspond. -/
inductive Each {α β : Type} (R : α → β → Prop) : List α → List β → Prop
  | nil : Each R [] []
  | cons {a b l m} : R a b → Each R l m → Each R (a :: l) (b :: m)

/-- How many of the whole pixels of the buffer are as asked. -/
def howMany (px : List Nat) (P : Nat → Nat → Nat → Nat → Bool) : Nat :=
  ((List.range (px.length / 4)).filter (fun k =>
    P (px.getD (4 * k) 0) (px.getD (4 * k + 1) 0) (px.getD (4 * k + 2) 0) (px.getD (4 * k + 3) 0))).length

/-- How sure it is that an area is text, in tenths: three if it is at least twice and less than twenty times as wide as high,
four if it is bright (above 200 on average over the three colours), three if it is 20 to 149 high. -/
def tenths (width height : Nat) (avg : List Nat) : Nat :=
  (if 2 * height ≤ width ∧ width < 20 * height then 3 else 0) + (if 600 < (avg.take 3).sum then 4 else 0) +
    (if 20 ≤ height ∧ height < 150 then 3 else 0)

end Verif.Spec.Analyzer
