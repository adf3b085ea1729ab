import Verif.Model.Outcome
/-!
# Compositing — `crates/ass-renderer/src/backends/coverage/{blend,composite}.rs`

Bytes are numbers below 256.  Arithmetic of `u16` and `i32` that overflows is a panic; the vector operations wrap.  The
buffers are lists of bytes; an index or a slice out of range is a panic.
-/
namespace Verif.Blend
open Verif

/-- Sequencing. -/
def bind {α β : Type} (o : Outcome α) (f : α → Outcome β) : Outcome β :=
  match o with
  | .ok a => f a
  | .err => .err
  | .panic => .panic

/-- A `u16` result. -/
def u16 (n : Nat) : Outcome Nat := if n < 65536 then .ok n else .panic

/-- `mul255`, blend.rs lines 14-17. -/
def mul255 (a b : Nat) : Outcome Nat :=
  bind (u16 (a * b)) fun m => bind (u16 (m + 128)) fun t => bind (u16 (t + t / 256)) fun u => .ok (u / 256)

/-- `255 - v` in `u16`. -/
def inv255 (v : Nat) : Outcome Nat := if v ≤ 255 then .ok (255 - v) else .panic

/-- `dst[i]`. -/
def get (dst : List Nat) (i : Nat) : Outcome Nat :=
  match dst[i]? with
  | some v => .ok v
  | none => .panic

/-- One channel: `dst[i] = (mul255(p, cov) + mul255(dst[i], inv)) as u8`, blend.rs lines 153-156. -/
def channel (dst : List Nat) (i p cov inv : Nat) : Outcome (List Nat) :=
  bind (mul255 p cov) fun s => bind (get dst i) fun d => bind (mul255 d inv) fun m => bind (u16 (s + m)) fun v =>
    .ok (dst.set i (v % 256))

/-- `blend_pixel`, blend.rs lines 148-157. -/
def blendPixel (dst : List Nat) (di cov pr pg pb pa : Nat) : Outcome (List Nat) :=
  if cov = 0 then .ok dst
  else bind (mul255 pa cov) fun m => bind (inv255 m) fun inv =>
    bind (channel dst di pr cov inv) fun dst => bind (channel dst (di + 1) pg cov inv) fun dst =>
    bind (channel dst (di + 2) pb cov inv) fun dst => channel dst (di + 3) pa cov inv

/-- `blend_row` without vectors, blend.rs lines 132-144; `di` is `dst_start + t * 4`. -/
def blendRow (dst : List Nat) (di : Nat) (cov : List Nat) (pr pg pb pa : Nat) : Outcome (List Nat) :=
  match cov with
  | [] => .ok dst
  | c :: cov => bind (blendPixel dst di c pr pg pb pa) fun dst => blendRow dst (di + 4) cov pr pg pb pa

/-- `mul255x16` in one lane, blend.rs lines 21-24. -/
def mulLane (a b : Nat) : Nat :=
  let t := (a * b % 65536 + 128) % 65536
  (t + t / 256) % 65536 / 256

/-- Four pixels, blend.rs lines 48-112; lanes as lists. -/
def blendFour (dst : List Nat) (di c0 c1 c2 c3 pr pg pb pa : Nat) : Outcome (List Nat) :=
  if (c0 ||| c1 ||| c2 ||| c3) ≠ 0 then
    let pcolor := [pr, pg, pb, pa, pr, pg, pb, pa, pr, pg, pb, pa, pr, pg, pb, pa]
    let cov := [c0, c0, c0, c0, c1, c1, c1, c1, c2, c2, c2, c2, c3, c3, c3, c3]
    let src := List.zipWith mulLane pcolor cov
    bind (inv255 (src.getD 3 0)) fun i0 => bind (inv255 (src.getD 7 0)) fun i1 =>
    bind (inv255 (src.getD 11 0)) fun i2 => bind (inv255 (src.getD 15 0)) fun i3 =>
      let inv := [i0, i0, i0, i0, i1, i1, i1, i1, i2, i2, i2, i2, i3, i3, i3, i3]
      if di + 16 ≤ dst.length then
        let d := (dst.drop di).take 16
        let out := List.zipWith (fun s m => (s + m) % 65536 % 256) src (List.zipWith mulLane d inv)
        .ok (dst.take di ++ out ++ dst.drop (di + 16))
      else .panic
  else .ok dst

/-- `blend_row` with vectors, blend.rs lines 32-127: fours, then what is left one by one. -/
def blendRowSimd (dst : List Nat) (di : Nat) (cov : List Nat) (pr pg pb pa : Nat) : Outcome (List Nat) :=
  match cov with
  | c0 :: c1 :: c2 :: c3 :: cov =>
    bind (blendFour dst di c0 c1 c2 c3 pr pg pb pa) fun dst => blendRowSimd dst (di + 16) cov pr pg pb pa
  | cov => blendRow dst di cov pr pg pb pa

/-- An `i32` result. -/
def i32 (n : Int) : Outcome Int := if -2147483648 ≤ n ∧ n ≤ 2147483647 then .ok n else .panic

/-- `u32 as i32`. -/
def asI32 (n : Nat) : Int := if n < 2147483648 then n else (n : Int) - 4294967296

/-- An index computed in `i32`; a negative one becomes a huge `usize` and panics. -/
def index (n : Int) : Outcome Nat := if 0 ≤ n then .ok n.toNat else .panic

/-- `&s[a..a + n]`. -/
def slice (s : List Nat) (a n : Nat) : Outcome (List Nat) :=
  if a + n ≤ s.length then .ok ((s.drop a).take n) else .panic

/-- The part of a tile of size `tw`×`th` at `(x, y)` that lies within `dw`×`dh`: `ty0`, `ty1`, `tx0`, `tx1`;
composite.rs lines 36-44, 107-115.  `none`: nothing to do. -/
def clip (dw dh tw th x y : Int) : Outcome (Option (Int × Int × Int × Int)) :=
  bind (i32 (-y)) fun ny => bind (i32 (dh - y)) fun by_ => bind (i32 (-x)) fun nx => bind (i32 (dw - x)) fun bx =>
    let ty0 := max ny 0
    let ty1 := min th by_
    let tx0 := max nx 0
    let tx1 := min tw bx
    if ty1 ≤ ty0 ∨ tx1 ≤ tx0 then .ok none else .ok (some (ty0, ty1, tx0, tx1))

/-- Both places of a row: `ty * tw + tx0` in the tile and `(y + ty) * dw + x + tx0` in the frame, composite.rs
lines 47-49, 117-118. -/
def places (dw tw x y tx0 ty : Int) : Outcome (Nat × Nat) :=
  bind (i32 (ty * tw)) fun a => bind (i32 (a + tx0)) fun a => bind (index a) fun tile =>
  bind (i32 (y + ty)) fun b => bind (i32 (b * dw)) fun b => bind (i32 (b + x)) fun b => bind (i32 (b + tx0)) fun b =>
  bind (index b) fun frame => .ok (tile, frame)

/-- The rows from `ty` on, `n` of them, composite.rs lines 46-51. -/
def coverageRows (row : List Nat → Nat → List Nat → Outcome (List Nat)) (cov : List Nat) (dw tw x y tx0 : Int) (run : Nat) :
    Nat → Int → List Nat → Outcome (List Nat)
  | 0, _, dst => .ok dst
  | n + 1, ty, dst =>
    bind (places dw tw x y tx0 ty) fun p => bind (slice cov p.1 run) fun r => bind (row dst (p.2 * 4) r) fun dst =>
      coverageRows row cov dw tw x y tx0 run n (ty + 1) dst

/-- `composite_coverage`, composite.rs lines 16-52, with either `blend_row`. -/
def composite (simd : Bool) (dst : List Nat) (dw dh : Nat) (cov : List Nat) (tw th : Nat) (x y : Int)
    (r g b a : Nat) : Outcome (List Nat) :=
  if a = 0 then .ok dst
  else bind (mul255 r a) fun pr => bind (mul255 g a) fun pg => bind (mul255 b a) fun pb =>
    bind (clip (asI32 dw) (asI32 dh) (asI32 tw) (asI32 th) x y) fun c =>
      match c with
      | none => .ok dst
      | some (ty0, ty1, tx0, tx1) =>
        let row := fun dst di cov => if simd then blendRowSimd dst di cov pr pg pb a else blendRow dst di cov pr pg pb a
        coverageRows row cov (asI32 dw) (asI32 tw) x y tx0 (tx1 - tx0).toNat (ty1 - ty0).toNat ty0 dst

/-- One channel of `composite_rgba`, composite.rs lines 123-129. -/
def overChannel (dst : List Nat) (i s inv : Nat) : Outcome (List Nat) :=
  bind (get dst i) fun d => bind (mul255 d inv) fun m => bind (u16 (s + m)) fun v => .ok (dst.set i (v % 256))

/-- One pixel of `composite_rgba`, composite.rs lines 120-130. -/
def overPixel (dst pixels : List Nat) (di si : Nat) : Outcome (List Nat) :=
  bind (get pixels (si + 3)) fun sa =>
    if sa = 0 then .ok dst
    else bind (inv255 sa) fun inv =>
      bind (get pixels si) fun s0 => bind (overChannel dst di s0 inv) fun dst =>
      bind (get pixels (si + 1)) fun s1 => bind (overChannel dst (di + 1) s1 inv) fun dst =>
      bind (get pixels (si + 2)) fun s2 => bind (overChannel dst (di + 2) s2 inv) fun dst =>
      overChannel dst (di + 3) sa inv

/-- A row of `composite_rgba`, composite.rs lines 119-133. -/
def overRow (pixels : List Nat) : Nat → List Nat → Nat → Nat → Outcome (List Nat)
  | 0, dst, _, _ => .ok dst
  | n + 1, dst, di, si => bind (overPixel dst pixels di si) fun dst => overRow pixels n dst (di + 4) (si + 4)

/-- The rows of `composite_rgba`, composite.rs lines 116-134. -/
def overRows (pixels : List Nat) (dw tw x y tx0 : Int) (run : Nat) : Nat → Int → List Nat → Outcome (List Nat)
  | 0, _, dst => .ok dst
  | n + 1, ty, dst =>
    bind (places dw tw x y tx0 ty) fun p => bind (overRow pixels run dst (p.2 * 4) (p.1 * 4)) fun dst =>
      overRows pixels dw tw x y tx0 run n (ty + 1) dst

/-- `composite_rgba`, composite.rs lines 103-135. -/
def compositeRgba (dst : List Nat) (dw dh : Nat) (pixels : List Nat) (tw th : Nat) (x y : Int) : Outcome (List Nat) :=
  bind (clip (asI32 dw) (asI32 dh) (asI32 tw) (asI32 th) x y) fun c =>
    match c with
    | none => .ok dst
    | some (ty0, ty1, tx0, tx1) =>
      overRows pixels (asI32 dw) (asI32 tw) x y tx0 (tx1 - tx0).toNat (ty1 - ty0).toNat ty0 dst

end Verif.Blend
