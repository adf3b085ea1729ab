import Verif.Model.Outcome
/-!
# Comparing pictures, and the reference pictures they are compared with

`compare_with_libass` and `create_comparison_image` (crates/ass-renderer/src/debug/visual_comparison/mod.rs, util.rs), and the
compositing of the bitmaps of libass into one picture (crates/ass-renderer/src/debug/libass/mod.rs lines 250-296).
`f32` sums and quotients are exact rationals here; the conversion of the number of pixels to `f32` and back is modelled with
its rounding.  Drawing a picture onto a transparent one without scaling, by the graphics library, copies its pixels
(trusted base).  Coordinates of bitmaps are unbounded integers where the code has `i32`.
-/
namespace Verif.Compare

/-- A pixel: four bytes. -/
structure Px where
  r : Nat
  g : Nat
  b : Nat
  a : Nat
  deriving DecidableEq, Repr

/-- `Pixmap` and `LibassFrame`: a picture; only the pixels inside count. -/
structure Pic where
  w : Nat
  h : Nat
  px : Nat → Nat → Px

/-- `(x as i32 - y as i32).abs()`, mod.rs lines 231-234. -/
def apart (x y : Nat) : Nat := ((x : Int) - (y : Int)).natAbs

/-- `pixel_diff`, mod.rs lines 231-236. -/
def pixelDiff (p q : Px) : Rat := ((apart p.r q.r + apart p.g q.g + apart p.b q.b + apart p.a q.a : Nat) : Rat) / 4

/-- `PixelDifference`, types.rs lines 59-65. -/
structure Diff where
  x : Nat
  y : Nat
  ours : Px
  theirs : Px
  difference : Rat
  deriving DecidableEq, Repr

/-- `ComparisonResult`, types.rs lines 50-56. -/
structure Result where
  average : Rat
  max : Rat
  different : Nat
  total : Nat
  list : List Diff
  deriving DecidableEq, Repr

/-- The variables of the loop, mod.rs lines 221-223. -/
structure Acc where
  list : List Diff
  total : Rat
  max : Rat

/-- The body of the loops, mod.rs lines 228-263. -/
def step (a b : Pic) (s : Acc) (c : Nat × Nat) : Acc :=
  let p := a.px c.1 c.2
  let q := b.px c.1 c.2
  let d := pixelDiff p q
  { list := if d > 10 then s.list ++ [⟨c.1, c.2, p, q, d⟩] else s.list,
    total := s.total + d,
    max := if d > s.max then d else s.max }

/-- The pixels the loops visit, mod.rs lines 226-227. -/
def visited (a b : Pic) : List (Nat × Nat) :=
  (List.range (min a.h b.h)).flatMap fun y => (List.range (min a.w b.w)).map fun x => (x, y)

/-- `n as f32 as usize`, mod.rs lines 267 and 273: 24 binary digits, halves to the even number. -/
def viaF32 (n : Nat) : Nat :=
  if n < 2 ^ 24 then n
  else
    let u := 2 ^ (n.log2 - 23)
    let q := n / u
    let rest := n % u
    (if 2 * rest > u ∨ (2 * rest = u ∧ q % 2 = 1) then q + 1 else q) * u

/-- `compare_with_libass`, mod.rs lines 216-276.  The product of the sides is a `u32`: an overflow panics (line 267). -/
def compareWith (a b : Pic) : Outcome Result :=
  let s := (visited a b).foldl (step a b) ⟨[], 0, 0⟩
  if a.w * a.h < 2 ^ 32 then
    .ok ⟨s.total / (viaF32 (a.w * a.h) : Nat), s.max, s.list.length, viaF32 (a.w * a.h), s.list⟩
  else .panic

/-- The pixel of an empty picture. -/
def clear : Px := ⟨0, 0, 0, 0⟩

/-- `draw_pixmap(x0, 0, src, …)` onto a picture that is transparent there. -/
def draw (dst : Pic) (x0 : Nat) (src : Pic) : Pic :=
  { dst with px := fun x y => if x0 ≤ x ∧ x < x0 + src.w ∧ y < src.h then src.px (x - x0) y else dst.px x y }

/-- `create_comparison_image`, util.rs lines 7-50.  The sum of the widths is a `u32`; `Pixmap::new` refuses pictures without
pixels. -/
def comparison (a b : Pic) (d : Option Pic) : Outcome Pic :=
  let w := a.w + b.w + (d.map (·.w)).getD 0
  let h := max a.h b.h
  if w ≥ 2 ^ 32 then .panic
  else if w = 0 ∨ h = 0 then .err
  else
    let p := draw (draw ⟨w, h, fun _ _ => clear⟩ 0 a) a.w b
    .ok (match d with
      | some d => draw p (a.w + b.w) d
      | none => p)

/-! ## The reference picture -/

/-- `over`, libass/mod.rs lines 283-296.  The last cast keeps eight bits. -/
def over (d : Px) (r g b sa : Nat) : Px :=
  let inv := 255 - sa
  let out := sa + d.a * inv / 255
  if out = 0 then d
  else
    let mix := fun sc dc => ((sc * sa + dc * d.a * inv / 255) / out) % 256
    ⟨mix r d.r, mix g d.g, mix b d.b, out % 256⟩

/-- `ASS_Image`: place, size, coverage in bytes and colour (red, green, blue, transparency). -/
structure Image where
  x : Int
  y : Int
  w : Nat
  h : Nat
  cov : Nat → Nat → Nat
  r : Nat
  g : Nat
  b : Nat
  alpha : Nat

/-- The value for one pixel of the bitmap, lines 264-277: `col` and `row` of the bitmap come to lie on `px`, `py`. -/
def put (f : Pic) (i : Image) (row col : Nat) : Pic :=
  let py := i.y + row
  let px := i.x + col
  if py < 0 ∨ py ≥ f.h then f
  else if px < 0 ∨ px ≥ f.w then f
  else
    let sa := i.cov row col * (255 - i.alpha) / 255
    if sa = 0 then f
    else { f with px := fun x y => if x = px.toNat ∧ y = py.toNat then over (f.px x y) i.r i.g i.b sa else f.px x y }

/-- `composite_image`, libass/mod.rs lines 250-280. -/
def composite (f : Pic) (i : Image) : Pic :=
  ((List.range i.h).flatMap fun row => (List.range i.w).map fun col => (row, col)).foldl (fun f c => put f i c.1 c.2) f

/-- The loop over the list of bitmaps in `render` and `render_track`, lines 128-154 and 196-222. -/
def reference (w h : Nat) (images : List Image) : Pic := images.foldl composite ⟨w, h, fun _ _ => clear⟩

end Verif.Compare
