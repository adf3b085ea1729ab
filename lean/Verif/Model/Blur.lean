/-!
# Gaussian blur — `crates/ass-renderer/src/backends/blur.rs`, the tiles it is applied to
(`backends/software/text/blur.rs`, `backends/software/vector.rs`) and the boxes kept for cropping
(`backends/software/dirty.rs`)

`f32` numbers are exact rationals.  The values of `exp` are the parameter `g : Int → Rat` (the weight of a pixel at a distance), the
number `2 / sqrt(ln 256)` is the parameter `s`.  The flat byte buffer is an image addressed by coordinates.
-/
namespace Verif.Blur

/-- Four bytes of the buffer. -/
structure Px where
  r : Nat
  g : Nat
  b : Nat
  a : Nat
deriving DecidableEq, Repr

/-- `Pixmap`: size and pixels by column and row. -/
structure Image where
  w : Nat
  h : Nat
  px : Int → Int → Px

/-- The sum of the first `n` values. -/
def total : Nat → (Nat → Rat) → Rat
  | 0, _ => 0
  | n + 1, f => total n f + f n

/-- The kernel, blur.rs lines 32-43. -/
def kernel (g : Int → Rat) (r : Nat) (i : Nat) : Rat :=
  g ((i : Int) - (r : Int)) / total (2 * r + 1) (fun j => g ((j : Int) - (r : Int)))

/-- The place read for entry `i` of the kernel, lines 68 and 87. -/
def tap (n r : Nat) (x : Int) (i : Nat) : Int :=
  max 0 (min (x + (i : Int) - (r : Int)) ((n : Int) - 1))

/-- `a.round().clamp(0.0, 255.0) as u8`, lines 76 and 95, for values that are not negative. -/
def toByte (q : Rat) : Nat := min (q + 1 / 2).floor.toNat 255

/-- One pass along one row or column, lines 65-78 and 84-97, for one channel. -/
def along (g : Int → Rat) (r n : Nat) (v : Int → Nat) (x : Int) : Nat :=
  toByte (total (2 * r + 1) (fun i => kernel g r i * (v (tap n r x i) : Rat)))

/-- Both passes, lines 60-98, for one channel. -/
def passes (g : Int → Rat) (r w h : Nat) (p : Int → Int → Nat) (x y : Int) : Nat :=
  along g r h (fun y' => along g r w (fun x' => p x' y') x) y

/-- Lines 54-57 for one colour byte. -/
def premul (c a : Nat) : Nat := (c * a + 127) / 255

/-- Lines 103-106 for one colour byte. -/
def unpremul (c a : Nat) : Nat := if a = 0 then 0 else min (c * 255 / a) 255

/-- `apply_gaussian_blur`, lines 20-108. -/
def blur (g : Int → Rat) (sigma : Rat) (im : Image) : Image :=
  if sigma ≤ 0 then im
  else
    let r := (sigma * 3).ceil.toNat
    if r < 1 ∨ im.w = 0 ∨ im.h = 0 then im
    else
      let pass := passes g r im.w im.h
      let a := pass (fun x y => (im.px x y).a)
      let cr := pass (fun x y => premul (im.px x y).r (im.px x y).a)
      let cg := pass (fun x y => premul (im.px x y).g (im.px x y).a)
      let cb := pass (fun x y => premul (im.px x y).b (im.px x y).a)
      { im with px := fun x y => ⟨unpremul (cr x y) (a x y), unpremul (cg x y) (a x y), unpremul (cb x y) (a x y), a x y⟩ }

/-- A tile: its size, and where the origin of what is drawn into it lies in it. -/
structure Tile where
  w : Nat
  h : Nat
  ox : Rat
  oy : Rat

/-- The temporary image for blurred text, text/blur.rs lines 30-32, 57 and 69-70.  Sizes are not limited to 2^32. -/
def textTile (width height ascent radius : Rat) : Tile :=
  let size : Int := (radius * 3).ceil
  ⟨(width + (size : Rat) * 2).ceil.toNat, (height + (size : Rat) * 2).ceil.toNat, (size : Rat), (size : Rat) + ascent⟩

/-- Where the left upper corner of that image is put on the frame, text/blur.rs lines 182-185. -/
def textCorner (ascent radius x baseline : Rat) : Rat × Rat :=
  (x - ((radius * 3).ceil : Rat), baseline - ((radius * 3).ceil : Rat) - ascent)

/-- A rectangle by its edges. -/
structure Box where
  left : Rat
  top : Rat
  right : Rat
  bottom : Rat
deriving DecidableEq

/-- The padding of a blurred drawing, vector.rs line 114. -/
def pad (blur : Rat) : Rat := max ((blur * 3).ceil : Rat) 1

/-- The temporary image for a blurred drawing with the given bounds, vector.rs lines 114-120. -/
def drawingTile (b : Box) (blur : Rat) : Tile :=
  ⟨max (b.right - b.left + pad blur * 2).ceil.toNat 1, max (b.bottom - b.top + pad blur * 2).ceil.toNat 1,
    pad blur - b.left, pad blur - b.top⟩

/-- Where it is put on the frame, vector.rs line 138. -/
def drawingCorner (b : Box) (blur : Rat) : Rat × Rat := (b.left - pad blur, b.top - pad blur)

/-- The box kept for cropping a drawing, vector.rs lines 60-67: left, top, right and bottom. -/
def drawingHint (b : Box) (stroke : Option Rat) (blur : Rat) : Int × Int × Int × Int :=
  let margin := 2 + stroke.getD 0 + blur * 3
  ((b.left - margin).floor, (b.top - margin).floor, (b.right + margin).ceil, (b.bottom + margin).ceil)

/-- The box kept for cropping text, dirty.rs lines 29-52, with the bounds of the transformed outlines and the largest outline width,
shadow offset and blur radius of the effects given. -/
def textHint (bounds : Box) (outline shadow blur : Rat) : Int × Int × Int × Int :=
  let margin := 4 + outline * 2 + shadow + blur * 4
  ((bounds.left - margin).floor, (bounds.top - margin).floor, (bounds.right + margin).ceil, (bounds.bottom + margin).ceil)

end Verif.Blur
