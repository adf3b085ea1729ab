import Verif.Model.Outcome
/-!
# Texture atlas — `crates/ass-renderer/src/utils/caches.rs` lines 86-184

`u32` numbers are natural numbers; an addition whose result does not fit is the outcome `panic`
(a debug build panics there, a release build wraps around).  Pixel memory is a function from byte
offset to byte, of length `width * height * 4`.
-/
namespace Verif.Atlas
open Verif

/-- 2^32. -/
def lim : Nat := 4294967296

/-- `AtlasRegion`, lines 98-110. -/
structure Region where
  id : Nat
  x : Nat
  y : Nat
  w : Nat
  h : Nat
deriving DecidableEq, Repr

/-- `TextureAtlas`, lines 87-95. -/
structure Atlas where
  width : Nat
  height : Nat
  data : Nat → Nat
  allocations : List Region
  nextX : Nat
  nextY : Nat
  rowH : Nat

/-- `new`, lines 114-124. -/
def new (width height : Nat) : Outcome Atlas :=
  if width * height * 4 < lim then .ok ⟨width, height, fun _ => 0, [], 0, 0, 0⟩ else .panic

/-- Lines 129-134: move to the next row when the current one is full. -/
def advance (a : Atlas) (w : Nat) : Atlas :=
  if a.nextX + w > a.width then { a with nextX := 0, nextY := a.nextY + a.rowH, rowH := 0 } else a

/-- `allocate`, lines 127-154.  Returns the region (or `none`) and the atlas afterwards. -/
def allocate (a : Atlas) (w h : Nat) : Outcome (Option Region × Atlas) :=
  if a.nextX + w ≥ lim then .panic
  else
    let b := advance a w
    if b.nextY + h ≥ lim then .panic
    else if b.nextY + h > b.height then .ok (none, b)
    else
      let r : Region := ⟨b.allocations.length, b.nextX, b.nextY, w, h⟩
      .ok (some r, { b with nextX := b.nextX + w, rowH := max b.rowH h, allocations := b.allocations ++ [r] })

/-- `copy_from_slice` of `n` bytes. -/
def copy (mem : Nat → Nat) (dst : Nat) (src : Nat → Nat) (srcOff n : Nat) : Nat → Nat :=
  fun i => if dst ≤ i ∧ i < dst + n then src (srcOff + (i - dst)) else mem i

/-- One row of `write_region`, lines 160-167. -/
def writeRow (width size : Nat) (r : Region) (src : Nat → Nat) (len : Nat) (mem : Nat → Nat) (y : Nat) : Nat → Nat :=
  let srcOff := y * r.w * 4
  let dstOff := (r.y + y) * (width * 4) + r.x * 4
  if srcOff + r.w * 4 ≤ len ∧ dstOff + r.w * 4 ≤ size then copy mem dstOff src srcOff (r.w * 4) else mem

/-- `write_region`, lines 157-169; `src`, `len` are the source bytes and their number.  The offsets are
not truncated to 32 bits here: for a region inside the atlas they never exceed the memory size, which
`new` already computed in 32 bits (`C59_in_bounds`). -/
def writeRegion (a : Atlas) (r : Region) (src : Nat → Nat) (len : Nat) : Atlas :=
  { a with data := (List.range r.h).foldl (writeRow a.width (a.width * a.height * 4) r src len) a.data }

end Verif.Atlas
