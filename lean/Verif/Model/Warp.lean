import Verif.Model.Paint
/-!
# Transforms and perspective — `backends/geometry.rs`, `backends/software/text/prepare.rs`, `utils/math.rs` of `crates/ass-renderer/src`

`f32` numbers are exact rationals; cosine and sine are parameters.
-/
namespace Verif.Warp
open Verif
open Verif.Paint (Data Shaped turned)

/-- The depth a point is divided by, geometry.rs lines 70-78; `fx`, `fy` hold cosine and sine of the angles. -/
def depth (fx fy : Rat × Rat) (c : Rat × Rat) (dist : Rat) (p : Rat × Rat) : Rat :=
  max ((p.1 - c.1) * fy.2 + (p.2 - c.2) * -fx.2 * fy.1 + dist) (1 / 10)

/-- `project` in `project_path_3d`, geometry.rs lines 67-80. -/
def project (fx fy : Rat × Rat) (c : Rat × Rat) (dist : Rat) (p : Rat × Rat) : Rat × Rat :=
  let dx := p.1 - c.1
  let dy := p.2 - c.2
  let z3 := dy * -fx.2
  let y3 := dy * fx.1
  let x4 := dx * fy.1 - z3 * fy.2
  let zf := depth fx fy c dist p
  (c.1 + x4 * dist / zf, c.2 + y3 * dist / zf)

/-- The distance of the camera, prepare.rs line 187. -/
def camera : Rat := 20000 / 64

/-- Where a point of the text, given relative to the start of its baseline, is shown: prepare.rs lines 61-142 and 183-199. -/
def seen (cosSin : Rat → Rat × Rat) (d : Data) (sh : Shaped) (p : Rat × Rat) : Rat × Rat :=
  match turned cosSin d sh with
  | (t, none) => t.map p
  | (t, some (x, y, c)) => project (cosSin x) (cosSin y) (t.map c) camera (t.map p)

/-! ## `utils/math.rs` -/

/-- `Matrix3x3`, lines 4-8: rows. -/
abbrev Row := Rat × Rat × Rat

/-- `Matrix3x3`, lines 4-8. -/
structure Mat where
  a : Row
  b : Row
  c : Row
deriving DecidableEq

/-- `identity`, lines 12-16. -/
def Mat.one : Mat := ⟨(1, 0, 0), (0, 1, 0), (0, 0, 1)⟩

/-- `translate`, lines 19-23. -/
def Mat.translate (x y : Rat) : Mat := ⟨(1, 0, x), (0, 1, y), (0, 0, 1)⟩

/-- `scale`, lines 26-30. -/
def Mat.scale (x y : Rat) : Mat := ⟨(x, 0, 0), (0, y, 0), (0, 0, 1)⟩

/-- `rotate`, lines 33-39, by cosine and sine. -/
def Mat.rotate (cs : Rat × Rat) : Mat := ⟨(cs.1, -cs.2, 0), (cs.2, cs.1, 0), (0, 0, 1)⟩

/-- A row of the product: `0 + self[i][0] * other[0][j] + …`, lines 45-50. -/
def Row.mul (r : Row) (m : Mat) : Row :=
  (0 + r.1 * m.a.1 + r.2.1 * m.b.1 + r.2.2 * m.c.1,
    0 + r.1 * m.a.2.1 + r.2.1 * m.b.2.1 + r.2.2 * m.c.2.1,
    0 + r.1 * m.a.2.2 + r.2.1 * m.b.2.2 + r.2.2 * m.c.2.2)

/-- `multiply`, lines 42-53. -/
def Mat.mul (m n : Mat) : Mat := ⟨Row.mul m.a n, Row.mul m.b n, Row.mul m.c n⟩

/-- `transform_point`, lines 56-60. -/
def Mat.point (m : Mat) (p : Rat × Rat) : Rat × Rat :=
  (m.a.1 * p.1 + m.a.2.1 * p.2 + m.a.2.2, m.b.1 * p.1 + m.b.2.1 * p.2 + m.b.2.2)

/-- `Transform2D`, lines 70-86. -/
structure Trs where
  tx : Rat
  ty : Rat
  sx : Rat
  sy : Rat
  rotation : Rat
  shearX : Rat
  shearY : Rat
deriving DecidableEq

/-- `Transform2D::identity`, lines 90-100. -/
def Trs.one : Trs := ⟨0, 0, 1, 1, 0, 0, 0⟩

/-- `to_matrix`, lines 103-109. -/
def Trs.matrix (cosSin : Rat → Rat × Rat) (t : Trs) : Mat :=
  ((Mat.translate t.tx t.ty).mul (Mat.rotate (cosSin t.rotation))).mul (Mat.scale t.sx t.sy)

/-- `lerp`, lines 132-134. -/
def lerp (a b t : Rat) : Rat := a + (b - a) * t

/-- `Transform2D::lerp`, lines 112-122. -/
def Trs.lerp (a b : Trs) (t : Rat) : Trs :=
  ⟨Warp.lerp a.tx b.tx t, Warp.lerp a.ty b.ty t, Warp.lerp a.sx b.sx t, Warp.lerp a.sy b.sy t, Warp.lerp a.rotation b.rotation t,
    Warp.lerp a.shearX b.shearX t, Warp.lerp a.shearY b.shearY t⟩

/-- `cubic_bezier`, lines 137-147. -/
def bezier (t p1 p2 : Rat) : Rat :=
  let t2 := t * t
  let t3 := t2 * t
  let mt := 1 - t
  let mt2 := mt * mt
  let mt3 := mt2 * mt
  mt3 * 0 + 3 * mt2 * t * p1 + 3 * mt * t2 * p2 + t3 * 1

end Verif.Warp
