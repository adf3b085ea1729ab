import Verif.Model.DebugRender
import Verif.Spec.Color
/-!
# What the debug renderer and the colour diagnostic should report

Only data types are taken from the model.
-/
namespace Verif.Spec.DebugRender
open Verif Verif.Parser Verif.Ast
open Verif.DebugRender (Frame Box Info)

/-- The pixel lies in the frame and its opacity, the fourth of its bytes, is not zero. -/
def Visible (f : Frame) (x y : Nat) : Prop :=
  x < f.w ∧ y < f.h ∧ ∃ a, f.bytes[4 * (f.w * y + x) + 3]? = some a ∧ a ≠ 0

/-- The smallest box around the visible pixels. -/
def Tight (f : Frame) (b : Box) : Prop :=
  (∀ x y, Visible f x y → b.minX ≤ x ∧ x ≤ b.maxX ∧ b.minY ≤ y ∧ y ≤ b.maxY) ∧
  (∃ y, Visible f b.minX y) ∧ (∃ y, Visible f b.maxX y) ∧ (∃ x, Visible f x b.minY) ∧ ∃ x, Visible f x b.maxY

/-- The report describes the frame. -/
def Describes (hash : List Nat → Nat) (f : Frame) (i : Info) : Prop :=
  i.memory = f.bytes.length ∧ i.checksum = hash f.bytes ∧
  (∃ l : List (Nat × Nat), l.Nodup ∧ (∀ c, c ∈ l ↔ Visible f c.1 c.2) ∧ i.count = l.length) ∧
  match i.box with
  | none => ∀ x y, ¬ Visible f x y
  | some b => Tight f b

/-- The frame is too large for its bytes to be counted in 32 bits. -/
def Huge (f : Frame) : Prop := ∃ x y, x < f.w ∧ y < f.h ∧ 2 ^ 32 ≤ 4 * (f.w * y + x)

/-- The named colours, red, green and blue. -/
def names : List ((Nat × Nat × Nat) × Str) :=
  [((255, 255, 255), "WHITE".toList), ((255, 0, 0), "RED".toList), ((0, 255, 0), "GREEN".toList), ((0, 0, 255), "BLUE".toList),
   ((255, 255, 0), "YELLOW".toList), ((0, 255, 255), "CYAN".toList), ((255, 0, 255), "MAGENTA".toList), ((0, 0, 0), "BLACK".toList)]

/-- The name of a colour. -/
def Named (r g b : Nat) (n : Str) : Prop :=
  ((r, g, b), n) ∈ names ∨ (n = "CUSTOM".toList ∧ ∀ m, ((r, g, b), m) ∉ names)

/-- The styles of the first section of styles, or none. -/
def Styles (secs : List Section) (l : List Style) : Prop :=
  (∃ a m b, secs = a ++ .styles m :: b ∧ (∀ x ∈ a, ∀ k, x ≠ .styles k) ∧ l = m.map (·.1)) ∨
  ((∀ x ∈ secs, ∀ k, x ≠ .styles k) ∧ l = [])

/-- The events of the first section of events, or none. -/
def Events (secs : List Section) (l : List Event) : Prop :=
  (∃ a m b, secs = a ++ .events m :: b ∧ (∀ x ∈ a, ∀ k, x ≠ .events k) ∧ l = m.map (·.1)) ∨
  ((∀ x ∈ secs, ∀ k, x ≠ .events k) ∧ l = [])

end Verif.Spec.DebugRender
