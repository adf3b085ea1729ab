import Verif.Model.Analyzer
/-!
# The frame inspector — `crates/ass-renderer/src/debug/inspector/{mod,info}.rs`

The index of a pixel is computed in 32 bits; it is taken not to overflow (frames of less than 2³⁰ pixels).  Printing and the
distance of colours (a square root) are left out.
-/
namespace Verif.Inspector
open Verif.Analyzer (Frame)

/-- `PixelInfo`, info.rs lines 14-21. -/
structure Pixel where
  x : Nat
  y : Nat
  r : Nat
  g : Nat
  b : Nat
  a : Nat
deriving DecidableEq, Repr

/-- `FrameInspector`, mod.rs lines 13-17. -/
structure Inspector where
  frame : Option Frame
  cx : Nat
  cy : Nat
deriving DecidableEq, Repr

/-- `FrameInspector::new`, mod.rs lines 26-32. -/
def new : Inspector := ⟨none, 0, 0⟩

/-- `load_frame`, mod.rs lines 34-38. -/
def load (_ : Inspector) (f : Frame) : Inspector := ⟨some f, f.w / 2, f.h / 2⟩

/-- `as i32` of an `u32`. -/
def toI32 (n : Nat) : Int := if n < 2 ^ 31 then n else n - 2 ^ 32

/-- `as u32` of an `i32`. -/
def toU32 (z : Int) : Nat := (z % 2 ^ 32).toNat

/-- A coordinate of `move_cursor`, mod.rs lines 42-44; `none`: arithmetic overflow. -/
def shift (c size : Nat) (d : Int) : Option Nat :=
  if -2 ^ 31 ≤ toI32 c + d ∧ toI32 c + d < 2 ^ 31 ∧ -2 ^ 31 ≤ toI32 size - 1 then some (toU32 (min (max (toI32 c + d) 0) (toI32 size - 1)))
  else none

/-- `move_cursor`, mod.rs lines 40-51; `none`: a panic. -/
def move (s : Inspector) (dx dy : Int) : Option Inspector :=
  match s.frame with
  | some f => match shift s.cx f.w dx, shift s.cy f.h dy with
    | some x, some y => some { s with cx := x, cy := y }
    | _, _ => none
  | none => some s

/-- `set_cursor`, mod.rs lines 53-58; `none`: a panic. -/
def setCursor (s : Inspector) (x y : Nat) : Option Inspector :=
  match s.frame with
  | some f => if 0 < f.w ∧ 0 < f.h then some { s with cx := min x (f.w - 1), cy := min y (f.h - 1) } else none
  | none => some s

/-- `get_pixel_at` of the loaded frame, mod.rs lines 67-85. -/
def pixelAt (f : Frame) (x y : Nat) : Option Pixel :=
  if x ≥ f.w ∨ y ≥ f.h then none
  else if (y * f.w + x) * 4 + 3 ≥ f.px.length then none
  else some ⟨x, y, f.px.getD ((y * f.w + x) * 4) 0, f.px.getD ((y * f.w + x) * 4 + 1) 0, f.px.getD ((y * f.w + x) * 4 + 2) 0,
    f.px.getD ((y * f.w + x) * 4 + 3) 0⟩

/-- `get_pixel_at_cursor`, mod.rs lines 60-65. -/
def atCursor (s : Inspector) : Option Pixel := s.frame.bind (fun f => pixelAt f s.cx s.cy)

/-- `ColorHistogram`, info.rs lines 192-199; the set of colours as a list without repetitions. -/
structure Colours where
  red : Nat := 0
  green : Nat := 0
  blue : Nat := 0
  alpha : Nat := 0
  count : Nat := 0
  unique : List (Nat × Nat × Nat × Nat) := []
deriving DecidableEq, Repr

/-- `add_pixel`, info.rs lines 213-221. -/
def addPixel (c : Colours) (p : Pixel) : Colours :=
  ⟨c.red + p.r, c.green + p.g, c.blue + p.b, c.alpha + p.a, c.count + 1,
    if (p.r, p.g, p.b, p.a) ∈ c.unique then c.unique else c.unique ++ [(p.r, p.g, p.b, p.a)]⟩

/-- `average_color`, info.rs lines 223-234. -/
def average (c : Colours) : Option (List Nat) :=
  if c.count = 0 then none else some [c.red / c.count, c.green / c.count, c.blue / c.count, c.alpha / c.count]

/-- `RegionInfo`, info.rs lines 149-156. -/
structure RegionInfo where
  x : Nat
  y : Nat
  width : Nat
  height : Nat
  pixels : List Pixel
  hist : Colours
deriving DecidableEq, Repr

/-- The loops of `get_region`, mod.rs lines 100-107. -/
def regionPixels (f : Frame) (x y xEnd yEnd : Nat) : List Pixel :=
  (List.range' y (yEnd - y)).flatMap (fun py => (List.range' x (xEnd - x)).filterMap (fun px => pixelAt f px py))

/-- `get_region` of the loaded frame, mod.rs lines 94-116; `none`: arithmetic overflow. -/
def region (f : Frame) (x y width height : Nat) : Option RegionInfo :=
  if x + width < 2 ^ 32 ∧ y + height < 2 ^ 32 ∧ x ≤ min (x + width) f.w ∧ y ≤ min (y + height) f.h then
    some ⟨x, y, min (x + width) f.w - x, min (y + height) f.h - y, regionPixels f x y (min (x + width) f.w) (min (y + height) f.h),
      (regionPixels f x y (min (x + width) f.w) (min (y + height) f.h)).foldl addPixel {}⟩
  else none

/-- `BoundsInfo`, info.rs lines 249-256. -/
structure Bounds where
  minX : Nat
  minY : Nat
  maxX : Nat
  maxY : Nat
  width : Nat
  height : Nat
deriving DecidableEq, Repr

/-- The variables of `find_non_transparent_bounds`, mod.rs lines 123-127. -/
structure Box where
  minX : Nat
  minY : Nat
  maxX : Nat
  maxY : Nat
  found : Bool

/-- The body of the loops, mod.rs lines 131-138. -/
def grow (f : Frame) (b : Box) (p : Nat × Nat) : Box :=
  if Analyzer.lit f (p.2 * f.w + p.1) then ⟨min b.minX p.1, min b.minY p.2, max b.maxX p.1, max b.maxY p.2, true⟩ else b

/-- `find_non_transparent_bounds` of the loaded frame, mod.rs lines 119-154. -/
def bounds (f : Frame) : Option Bounds :=
  let b := (Analyzer.positions f).foldl (grow f) ⟨f.w, f.h, 0, 0, false⟩
  if b.found then some ⟨b.minX, b.minY, b.maxX, b.maxY, b.maxX - b.minX + 1, b.maxY - b.minY + 1⟩ else none

/-- `LineScanSegment`, info.rs lines 269-275. -/
structure Segment where
  y : Nat
  start : Nat
  stop : Nat
  pixels : List Pixel
  avg : List Nat
deriving DecidableEq, Repr

/-- `abs_diff`. -/
def absDiff (a b : Nat) : Nat := if a < b then b - a else a - b

/-- `LineScanSegment::is_similar`, info.rs lines 278-290. -/
def similar (s : Segment) (p : Pixel) : Bool :=
  if s.pixels = [] then false
  else decide (absDiff (s.avg.getD 0 0) p.r ≤ 30) && decide (absDiff (s.avg.getD 1 0) p.g ≤ 30) && decide (absDiff (s.avg.getD 2 0) p.b ≤ 30)

/-- `PixelInfo::is_similar`, info.rs lines 66-73. -/
def alike (p q : Pixel) (t : Nat) : Bool :=
  decide (absDiff p.r q.r ≤ t) && decide (absDiff p.g q.g ≤ t) && decide (absDiff p.b q.b ≤ t) && decide (absDiff p.a q.a ≤ t)

/-- `calculate_average`, info.rs lines 292-313. -/
def withAverage (s : Segment) : Segment :=
  if s.pixels = [] then s
  else { s with avg := [(s.pixels.map (·.r)).sum / s.pixels.length, (s.pixels.map (·.g)).sum / s.pixels.length,
    (s.pixels.map (·.b)).sum / s.pixels.length, (s.pixels.map (·.a)).sum / s.pixels.length] }

/-- A new segment, mod.rs lines 182-188. -/
def newSegment (y x : Nat) (p : Pixel) : Segment := ⟨y, x, x, [p], [p.r, p.g, p.b, p.a]⟩

/-- A visible pixel, mod.rs lines 173-190. -/
def scanVisible (y : Nat) (st : List Segment × Option Segment) (x : Nat) (p : Pixel) : List Segment × Option Segment :=
  match st.2 with
  | some seg => if similar seg p then (st.1, some { seg with stop := x, pixels := seg.pixels ++ [p] })
    else (st.1 ++ [seg], some (newSegment y x p))
  | none => (st.1, some (newSegment y x p))

/-- A transparent pixel, mod.rs lines 191-193. -/
def scanClear (st : List Segment × Option Segment) : List Segment × Option Segment :=
  match st.2 with
  | some seg => (st.1 ++ [seg], none)
  | none => st

/-- The body of the loop of `scan_line`, mod.rs lines 170-194. -/
def scanStep (f : Frame) (y : Nat) (st : List Segment × Option Segment) (x : Nat) : List Segment × Option Segment :=
  match pixelAt f x y with
  | some p => if p.a > 0 then scanVisible y st x p else scanClear st
  | none => st

/-- `scan_line` of the loaded frame, mod.rs lines 162-202. -/
def scanLine (f : Frame) (y : Nat) : List Segment :=
  if y ≥ f.h then []
  else
    let st := (List.range f.w).foldl (scanStep f y) ([], none)
    match st.2 with
    | some seg => st.1 ++ [withAverage seg]
    | none => st.1

end Verif.Inspector
