import Verif.Model.Segment
import Verif.Model.Alignment
/-!
# Layout helpers — `crates/ass-renderer/src/layout/{context,metrics,multiline,positioning/{coords,info}}.rs`

`f32` numbers are exact rationals; dividing by zero gives 0 here and an infinity or no number in the code.  Of the box only the size is
used, as in the code.
-/
namespace Verif.Layout
open Verif
open Verif.Segment (Move)

/-- `BoundingBox` without its corner, positioning/mod.rs lines 13-19. -/
structure Box where
  width : Rat
  height : Rat
deriving DecidableEq

/-- `PositionConfig`, positioning/mod.rs lines 22-29. -/
structure Config where
  width : Rat
  height : Rat
  left : Rat
  right : Rat
  vertical : Rat
  alignment : Nat
deriving DecidableEq

/-- The fields of `ProcessedTags` that are used. -/
structure Tags where
  alignment : Option Nat
  position : Option (Rat × Rat)
  movement : Option Move
  origin : Option (Rat × Rat)
deriving DecidableEq

/-- `PositionInfo`, info.rs lines 7-19. -/
structure Info where
  renderX : Rat
  renderY : Rat
  anchorX : Rat
  anchorY : Rat
  originX : Rat
  originY : Rat
  explicit : Bool
deriving DecidableEq

/-- The horizontal part of `get_anchor_point`, info.rs lines 89-102.  The last arm is never taken. -/
def anchorX (alignment : Nat) (b : Box) (c : Config) : Rat :=
  if alignment % 3 = 1 then c.left
  else if alignment % 3 = 2 ∨ alignment % 3 = 0 then (c.width - b.width) / 2
  else c.width - c.right - b.width

/-- The vertical part, info.rs lines 105-122. -/
def anchorY (alignment : Nat) (b : Box) (c : Config) : Rat :=
  if 1 ≤ alignment ∧ alignment ≤ 3 then c.height - c.vertical - b.height
  else if 4 ≤ alignment ∧ alignment ≤ 6 then (c.height - b.height) / 2
  else if 7 ≤ alignment ∧ alignment ≤ 9 then c.vertical
  else c.height - c.vertical - b.height

/-- `get_alignment_offset_x`, info.rs lines 128-134. -/
def offsetX (alignment : Nat) (b : Box) : Rat :=
  if alignment % 3 = 1 then 0
  else if alignment % 3 = 2 ∨ alignment % 3 = 0 then b.width / 2
  else b.width

/-- `get_alignment_offset_y`, info.rs lines 137-144. -/
def offsetY (alignment : Nat) (b : Box) : Rat :=
  if 1 ≤ alignment ∧ alignment ≤ 3 then b.height
  else if 4 ≤ alignment ∧ alignment ≤ 6 then b.height / 2
  else if 7 ≤ alignment ∧ alignment ≤ 9 then 0
  else b.height

/-- The alignment in force, info.rs lines 25-28. -/
def effective (t : Tags) (c : Config) : Nat := t.alignment.getD c.alignment

/-- Where the text is drawn, info.rs lines 42-56. -/
def render (t : Tags) (b : Box) (c : Config) : Rat × Rat × Bool :=
  match t.position, t.movement with
  | some (x, y), _ => (x - offsetX (effective t c) b, y - offsetY (effective t c) b, true)
  | none, some m => (m.x1 - offsetX (effective t c) b, m.y1 - offsetY (effective t c) b, true)
  | none, none => (anchorX (effective t c) b c, anchorY (effective t c) b c, false)

/-- The point of rotation, info.rs lines 59-65. -/
def origin (t : Tags) (b : Box) (c : Config) : Rat × Rat :=
  t.origin.getD (anchorX (effective t c) b c + b.width / 2, anchorY (effective t c) b c + b.height / 2)

/-- `PositionInfo::calculate`, info.rs lines 23-76. -/
def calculate (t : Tags) (b : Box) (c : Config) : Info :=
  ⟨(render t b c).1, (render t b c).2.1, anchorX (effective t c) b c, anchorY (effective t c) b c, (origin t b c).1, (origin t b c).2, (render t b c).2.2⟩

/-- `clamp(0.0, 1.0)`. -/
def clamp01 (x : Rat) : Rat := if x < 0 then 0 else if 1 < x then 1 else x

/-- The share of the movement made, info.rs lines 159-167; times are subtracted with `saturating_sub`. -/
def factor (t1 t2 now start : Nat) : Rat :=
  if t2 > t1 then clamp01 (((now - start - t1 : Nat) : Rat) / ((t2 - t1 : Nat) : Rat)) else 1

/-- `PositionInfo::calculate_with_movement`, info.rs lines 147-184. -/
def calculateMoving (t : Tags) (b : Box) (c : Config) (now start : Nat) : Info :=
  match t.movement with
  | none => calculate t b c
  | some m =>
    { calculate t b c with
      renderX := m.x1 + (m.x2 - m.x1) * factor m.t1 m.t2 now start - offsetX (effective t c) b
      renderY := m.y1 + (m.y2 - m.y1) * factor m.t1 m.t2 now start - offsetY (effective t c) b
      explicit := true }

/-- `scale_coordinates`, coords.rs lines 2-13, and `apply_play_res_scaling`, context.rs lines 72-76. -/
def scale (x y playX playY width height : Rat) : Rat × Rat := (x * (width / playX), y * (height / playY))

/-- `LayoutContext`, context.rs lines 6-14. -/
structure Context where
  width : Rat
  height : Rat
  left : Rat
  right : Rat
  vertical : Rat
  playX : Rat
  playY : Rat
deriving DecidableEq

/-- `LayoutContext::new`, context.rs lines 17-27. -/
def Context.new (w h : Rat) : Context := ⟨w, h, 0, 0, 0, w, h⟩

/-- `calculate_position`, context.rs lines 30-69; the alignment by its number (alignment.rs lines 5-25). -/
def Context.position (c : Context) (alignment : Nat) (w h : Rat) : Rat × Rat :=
  (if alignment ∈ [1, 4, 7] then c.left else if alignment ∈ [2, 5, 8] then c.width / 2 - w / 2 else c.width - c.right - w,
   if alignment ∈ [7, 8, 9] then c.vertical else if alignment ∈ [4, 5, 6] then c.height / 2 - h / 2 else c.height - c.vertical - h)

/-- `apply_play_res_scaling`, context.rs lines 72-76. -/
def Context.scale (c : Context) (x y : Rat) : Rat × Rat := Layout.scale x y c.playX c.playY c.width c.height

/-- `LineLayout`, multiline.rs lines 21-28. -/
structure Line where
  text : Str
  x : Rat
  y : Rat
  width : Rat
  height : Rat
  baseline : Rat
deriving DecidableEq

/-- A line's width, multiline.rs line 49. -/
def lineWidth (s : Str) : Rat := (byteLen s : Rat) * 20

/-- The widest line, multiline.rs lines 42 and 50. -/
def maxWidth (ls : List Str) : Rat := ls.foldl (fun m s => max m (lineWidth s)) 0

/-- The indent of a line, multiline.rs lines 68-76. -/
def indent (alignment : Nat) (mx w : Rat) : Rat :=
  if alignment ∈ [1, 4, 7] then 0 else if alignment ∈ [2, 5, 8] then (mx - w) / 2 else mx - w

/-- The lines from number `i` on, multiline.rs lines 48-77. -/
def lay (alignment : Nat) (spacing mx : Rat) : Nat → List Str → List Line
  | _, [] => []
  | i, s :: l => ⟨s, indent alignment mx (lineWidth s), (i : Rat) * (50 + spacing), lineWidth s, 50, 50 * (4 / 5)⟩ :: lay alignment spacing mx (i + 1) l

/-- `MultiLineLayout`, multiline.rs lines 14-18. -/
structure Multi where
  lines : List Line
  width : Rat
  height : Rat
deriving DecidableEq

/-- `MultiLineLayout::new`, multiline.rs lines 32-84. -/
def multi (text : Str) (alignment : Nat) (spacing : Rat) : Multi :=
  ⟨lay alignment spacing (maxWidth (splitOn '\n' text)) 0 (splitOn '\n' text), maxWidth (splitOn '\n' text),
   (((splitOn '\n' text).length - 1 : Nat) : Rat) * (50 + spacing) + 50⟩

end Verif.Layout
