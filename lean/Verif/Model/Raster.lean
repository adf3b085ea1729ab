import Verif.Model.Outcome
import Verif.Model.Blend
/-!
# The scanline rasterizer — `crates/ass-renderer/src/backends/raster/{mod,span}.rs` and `CoverageTile::rasterize`, `backends/coverage/mod.rs`

Coordinates and accumulated areas are exact numbers in place of `f32`; infinities and NaN do not occur.
-/
namespace Verif.Raster
open Verif
open Verif.Blend (bind i32)

/-- `Rasterizer`, raster/mod.rs lines 24-37.  The stride is `width + 2`. -/
structure Raster where
  width : Nat
  height : Nat
  acc : List Rat
  rowMin : List Nat
  rowMax : List Nat

/-- `Rasterizer::new`, raster/mod.rs lines 42-53. -/
def new (width height : Nat) : Raster :=
  ⟨width, height, List.replicate ((width + 2) * max height 1) 0, List.replicate (max height 1) width, List.replicate (max height 1) 0⟩

/-- `f32::clamp(0.0, w)`. -/
def clamp (x w : Rat) : Rat := if x < 0 then 0 else if w < x then w else x

/-- The several columns of an edge, raster/mod.rs lines 120-144: what is added to which column. -/
def spread (xa xb d : Rat) (x0i x1i : Nat) : List (Nat × Rat) :=
  let s := 1 / (xb - xa)
  let x0f := xa - x0i
  let am := 1 / 2 * s * (1 - x0f) * (1 - x0f)
  let x1f := xb - x1i + 1
  let bm := 1 / 2 * s * x1f * x1f
  (x0i, d * am) :: ((if x1i = x0i + 2 then [(x0i + 1, d * (1 - am - bm))]
    else
      let a0 := s * (3 / 2 - x0f)
      (x0i + 1, d * (a0 - am)) :: ((List.range (x1i - 1 - (x0i + 2))).map fun k => (x0i + 2 + k, d * s)) ++
        [(x1i - 1, d * (1 - (a0 + ((x1i - x0i : Nat) - 3) * s) - bm))]) ++ [(x1i, d * bm)])

/-- What a part of an edge in one row adds to which column, raster/mod.rs lines 97-104 and 114-144: the columns of its ends, and
the additions. -/
def deposits (x xNext d w : Rat) : Nat × Nat × List (Nat × Rat) :=
  let xc := clamp x w
  let xnc := clamp xNext w
  let xa := if xc < xnc then xc else xnc
  let xb := if xc < xnc then xnc else xc
  let x0i := xa.floor.toNat
  let x1i := xb.ceil.toNat
  if x1i ≤ x0i + 1 then
    let xmf := 1 / 2 * (xc + xnc) - x0i
    (x0i, x1i, [(x0i, d * (1 - xmf)), (x0i + 1, d * xmf)])
  else (x0i, x1i, spread xa xb d x0i x1i)

/-- `self.acc[start + i] += v` for each. -/
def addAll (start : Nat) : List (Nat × Rat) → List Rat → Outcome (List Rat)
  | [], acc => .ok acc
  | (i, v) :: ps, acc =>
    if start + i < acc.length then addAll start ps (acc.set (start + i) (acc.getD (start + i) 0 + v)) else .panic

/-- One row of an edge, raster/mod.rs lines 87-144. -/
def depositRow (r : Raster) (y : Nat) (x xNext d : Rat) : Outcome Raster :=
  let p := deposits x xNext d r.width
  if y < r.rowMin.length ∧ y < r.rowMax.length then
    bind (addAll (y * (r.width + 2)) p.2.2 r.acc) fun acc =>
      .ok { r with acc := acc, rowMin := r.rowMin.set y (min (r.rowMin.getD y 0) p.1), rowMax := r.rowMax.set y (max (r.rowMax.getD y 0) (max p.2.1 (p.1 + 1))) }
  else .panic

/-- The loop over rows, raster/mod.rs lines 86-147, from row `y` on. -/
def rows (dxdy yTop yBot dir : Rat) : Nat → Nat → Rat → Raster → Outcome Raster
  | 0, _, _, r => .ok r
  | n + 1, y, x, r =>
    let dy := min ((y : Rat) + 1) yBot - max (y : Rat) yTop
    if dy ≤ 0 then rows dxdy yTop yBot dir n (y + 1) x r
    else bind (depositRow r y x (x + dxdy * dy) (dy * dir)) fun r => rows dxdy yTop yBot dir n (y + 1) (x + dxdy * dy) r

/-- The edge from top to bottom, raster/mod.rs lines 66-147. -/
def edge (r : Raster) (dir x topY botX botY : Rat) : Outcome Raster :=
  if botY - topY ≤ 0 then .ok r
  else
    let dxdy := (botX - x) / (botY - topY)
    let x := if topY < 0 then x + -topY * dxdy else x
    let yTop := if topY < 0 then 0 else topY
    let yBot := min botY r.height
    if yBot ≤ yTop then .ok r
    else rows dxdy yTop yBot dir (min yBot.ceil.toNat r.height - yTop.floor.toNat) yTop.floor.toNat x r

/-- `Rasterizer::line`, raster/mod.rs lines 59-148. -/
def line (r : Raster) (x0 y0 x1 y1 : Rat) : Outcome Raster :=
  if y0 ≤ y1 then edge r 1 x0 y0 x1 y1 else edge r (-1) x1 y1 x0 y0

/-- A point. -/
abbrev Point := Rat × Rat

/-- Calls of `line` one after the other, from the first point of each pair to the second. -/
def lines : List (Point × Point) → Raster → Outcome Raster
  | [], r => .ok r
  | e :: es, r => bind (line r e.1.1 e.1.2 e.2.1 e.2.2) fun r => lines es r

/-- The largest `k ≤ most` with a property, or 0. -/
def largest (p : Nat → Bool) : Nat → Nat
  | 0 => 0
  | k + 1 => if p (k + 1) then k + 1 else largest p k

/-- The square of the length of `a - 2 b + c`. -/
def bend (a b c : Point) : Rat := (a.1 - 2 * b.1 + c.1) ^ 2 + (a.2 - 2 * b.2 + c.2) ^ 2

/-- `n` of `Rasterizer::quad`, raster/mod.rs lines 153-154: `(1 + ⌊√(dev / 0.8)⌋).clamp(1, 64)`; the comparison
`k ≤ √(√D / 0.8)` without roots. -/
def quadSteps (a c b : Point) : Nat := 1 + largest (fun k => decide ((4 / 5 * (k : Rat) ^ 2) ^ 2 ≤ bend a c b)) 63

/-- The point at `t`, raster/mod.rs lines 158-163. -/
def quadAt (a c b : Point) (t : Rat) : Point :=
  let mt := 1 - t
  (mt * mt * a.1 + 2 * mt * t * c.1 + t * t * b.1, mt * mt * a.2 + 2 * mt * t * c.2 + t * t * b.2)

/-- `n` of `Rasterizer::cubic`, raster/mod.rs lines 183-185: `(1 + ⌊√((d1 + d2) / 0.8)⌋).clamp(1, 96)`, without roots. -/
def cubicSteps (a c d b : Point) : Nat :=
  1 + largest (fun k =>
    let m := (4 / 5 * (k : Rat) ^ 2) ^ 2 - bend a c d - bend c d b
    decide (m ≤ 0 ∨ m ^ 2 ≤ 4 * bend a c d * bend c d b)) 95

/-- The point at `t`, raster/mod.rs lines 189-195. -/
def cubicAt (a c d b : Point) (t : Rat) : Point :=
  let mt := 1 - t
  (mt * mt * mt * a.1 + 3 * mt * mt * t * c.1 + 3 * mt * t * t * d.1 + t * t * t * b.1,
   mt * mt * mt * a.2 + 3 * mt * mt * t * c.2 + 3 * mt * t * t * d.2 + t * t * t * b.2)

/-- The loops of `quad` and `cubic`, raster/mod.rs lines 156-167 and 187-199: `k` steps are left of `n`. -/
def steps (at_ : Rat → Point) (n : Nat) : Nat → Point → Raster → Outcome Raster
  | 0, _, r => .ok r
  | k + 1, p, r =>
    let q := at_ (((n - k : Nat) : Rat) / n)
    bind (line r p.1 p.2 q.1 q.2) fun r => steps at_ n k q r

/-- `Rasterizer::quad`, raster/mod.rs lines 151-168. -/
def quad (r : Raster) (a c b : Point) : Outcome Raster := steps (quadAt a c b) (quadSteps a c b) (quadSteps a c b) a r

/-- `Rasterizer::cubic`, raster/mod.rs lines 172-200. -/
def cubic (r : Raster) (a c d b : Point) : Outcome Raster := steps (cubicAt a c d b) (cubicSteps a c d b) (cubicSteps a c d b) a r

/-- `convert_span` at one pixel, raster/span.rs lines 10-38: the same with and without SIMD. -/
def convert (s : Rat) : Nat := min 255 (min (max s (-s)) 1 * 255 + 1 / 2).floor.toNat

/-- The prefix sums, raster/mod.rs lines 223-227. -/
def sums : Rat → List Rat → List Rat
  | _, [] => []
  | s, a :: as => (s + a) :: sums (s + a) as

/-- One row of `finish`, raster/mod.rs lines 213-228.  The slices are within bounds: a row has `width + 2` cells. -/
def finishRow (r : Raster) (y : Nat) : List Nat :=
  let lo := r.rowMin.getD y 0
  let hi := min (r.rowMax.getD y 0) (r.width - 1)
  if hi < lo then List.replicate r.width 0
  else List.replicate lo 0 ++ ((sums 0 ((r.acc.drop (y * (r.width + 2) + lo)).take (hi + 1 - lo))).map convert) ++
    List.replicate (r.width - 1 - hi) 0

/-- `Rasterizer::finish`, raster/mod.rs lines 205-231. -/
def finish (r : Raster) : List Nat := if r.width = 0 then [] else (List.range r.height).flatMap (finishRow r)

/-- `tiny_skia::PathSegment`. -/
inductive Seg where
  | moveTo (p : Point)
  | lineTo (p : Point)
  | quadTo (c p : Point)
  | cubicTo (c d p : Point)
  | close

/-- The points of a segment. -/
def Seg.points : Seg → List Point
  | .moveTo p => [p]
  | .lineTo p => [p]
  | .quadTo c p => [c, p]
  | .cubicTo c d p => [c, d, p]
  | .close => []

/-- The place in the loop of `rasterize`. -/
structure Pen where
  start : Point
  cur : Point
  isOpen : Bool

/-- A point in the tile. -/
def move (o : Point) (p : Point) : Point := (p.1 - o.1, p.2 - o.2)

/-- One segment, coverage/mod.rs lines 108-139. -/
def draw (o : Point) (pen : Pen) (r : Raster) : Seg → Outcome (Pen × Raster)
  | .moveTo p =>
    bind (if pen.isOpen then line r pen.cur.1 pen.cur.2 pen.start.1 pen.start.2 else .ok r) fun r => .ok (⟨move o p, move o p, true⟩, r)
  | .lineTo p => bind (line r pen.cur.1 pen.cur.2 (move o p).1 (move o p).2) fun r => .ok ({ pen with cur := move o p }, r)
  | .quadTo c p => bind (quad r pen.cur (move o c) (move o p)) fun r => .ok ({ pen with cur := move o p }, r)
  | .cubicTo c d p => bind (cubic r pen.cur (move o c) (move o d) (move o p)) fun r => .ok ({ pen with cur := move o p }, r)
  | .close => bind (line r pen.cur.1 pen.cur.2 pen.start.1 pen.start.2) fun r => .ok ({ pen with cur := pen.start }, r)

/-- The segments, coverage/mod.rs lines 107-143. -/
def drawAll (o : Point) : List Seg → Pen → Raster → Outcome Raster
  | [], pen, r => if pen.isOpen then line r pen.cur.1 pen.cur.2 pen.start.1 pen.start.2 else .ok r
  | s :: ss, pen, r => bind (draw o pen r s) fun p => drawAll o ss p.1 p.2

/-- `as i32` of a whole number, which saturates. -/
def sat (n : Int) : Int := max (-2147483648) (min n 2147483647)

/-- `CoverageTile::rasterize`, coverage/mod.rs lines 88-154, with `path.bounds()` given as left, top, right, bottom: width, height, bytes, x and y.  `none` from `u32::try_from` cannot occur. -/
def rasterize (left top right bottom : Rat) (segs : List Seg) : Outcome (Nat × Nat × List Nat × Int × Int) :=
  bind (i32 (sat left.floor - 1)) fun minX => bind (i32 (sat top.floor - 1)) fun minY =>
  bind (i32 (sat right.ceil + 1)) fun maxX => bind (i32 (sat bottom.ceil + 1)) fun maxY =>
  bind (i32 (maxX - minX)) fun w => bind (i32 (maxY - minY)) fun h =>
    let width := (max w 1).toNat
    let height := (max h 1).toNat
    bind (drawAll (minX, minY) segs ⟨(0, 0), (0, 0), false⟩ (new width height)) fun r => .ok (width, height, finish r, minX, minY)

end Verif.Raster
