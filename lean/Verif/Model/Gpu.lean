import Verif.Model.Outcome
import Verif.Model.Blend
/-!
# The GPU compositor — `crates/ass-renderer/src/backends/gpu/{mod,pool,readback,target,layer,shader,pipeline}.rs`, `gpu/compositor/{mod,tiles,present}.rs`

The graphics library is part of the trusted base and modelled as follows.  Writes to textures and buffers and submitted passes take
effect in the order of the calls.  A texture whose side is 0 or above the limit of the device, a buffer above the limit, a write
beyond its end and a dynamic offset that is not aligned or out of range are validation errors, which panic.  A quad produces a
fragment for every pixel whose centre lies within it, edges at the top and left included; its texture is sampled at the nearest
texel.  Positions are computed in `f32`, where the device's `f32` says what an exact result is rounded to; colours are computed
exactly and rounded by `store` when they are written to a texture of bytes.  `u32` results that overflow are a panic.
-/
namespace Verif.Gpu
open Verif
open Verif.Blend (bind i32 asI32 slice)

/-- `RenderBitmap`, backends/coverage/mod.rs lines 47-77. -/
inductive Bitmap where
  | coverage (w h : Nat) (data : List Nat) (x y : Int) (r g b a : Nat)
  | rgba (w h : Nat) (data : List Nat) (x y : Int)
deriving DecidableEq

/-- The formats of tile textures. -/
inductive Fmt where
  | r8
  | rgba8
deriving DecidableEq

/-- Bytes of a texel. -/
def Fmt.size : Fmt → Nat
  | .r8 => 1
  | .rgba8 => 4

/-- A pixel of a target: bytes. -/
structure Px where
  r : Nat
  g : Nat
  b : Nat
  a : Nat
deriving DecidableEq

/-- A colour in a shader. -/
structure Colour where
  r : Rat
  g : Rat
  b : Rat
  a : Rat
deriving DecidableEq

/-- What the graphics device does: its limits, rounding of positions and of stored channels, and the bytes it leaves in the
padding at the end of the rows of a copied texture. -/
structure Device where
  maxSide : Nat
  maxBuffer : Nat
  align : Nat
  f32 : Rat → Rat
  store : Rat → Nat
  padding : Nat → Nat → Nat

/-- A `u32` result. -/
def u32 (n : Nat) : Outcome Nat := if n < 4294967296 then .ok n else .panic

/-- `QuadUniform`, pool.rs lines 21-30: the rectangle, the colour, and whether the mode is `1`. -/
structure Quad where
  left : Rat
  top : Rat
  right : Rat
  bottom : Rat
  colour : Colour
  rgba : Bool
deriving DecidableEq

/-- `UNIFORM_SIZE`, pool.rs line 18: twelve `f32`s. -/
def uniformSize : Nat := 48

/-- `QuadUniform::full_frame_rgba`, pool.rs lines 35-41. -/
def fullFrame : Quad := ⟨-1, 1, 1, -1, ⟨0, 0, 0, 0⟩, true⟩

/-- `left / frame_w * 2.0 - 1.0`, pool.rs lines 234 and 236. -/
def acrossPos (f : Rat → Rat) (v size : Rat) : Rat := f (f (f (v / size) * 2) - 1)

/-- `1.0 - top / frame_h * 2.0`, pool.rs lines 235 and 237. -/
def downPos (f : Rat → Rat) (v size : Rat) : Rat := f (1 - f (f (v / size) * 2))

/-- `tile_rect`, pool.rs lines 226-239: left, top, right, bottom. -/
def tileRect (f : Rat → Rat) (x y : Int) (w h fw fh : Nat) : Outcome (Rat × Rat × Rat × Rat) :=
  bind (i32 (x + asI32 w)) fun right => bind (i32 (y + asI32 h)) fun bottom =>
    .ok (acrossPos f (f x) (f fw), downPos f (f y) (f fh), acrossPos f (f right) (f fw), downPos f (f bottom) (f fh))

/-- `TileDesc`, pool.rs lines 50-63. -/
structure Desc where
  quad : Quad
  fmt : Fmt
  w : Nat
  h : Nat
  data : List Nat
  rowBytes : Nat

/-- A byte as a colour channel: `f32::from(c) / 255.0` and the value of a `Unorm` texel. -/
def unit (c : Nat) : Rat := (c : Rat) / 255

/-- `describe`, pool.rs lines 66-111. -/
def describe (f : Rat → Rat) (fw fh : Nat) : Bitmap → Outcome Desc
  | .coverage w h data x y r g b a =>
    bind (tileRect f x y w h fw fh) fun q =>
      .ok ⟨⟨q.1, q.2.1, q.2.2.1, q.2.2.2, ⟨unit r, unit g, unit b, unit a⟩, false⟩, .r8, w, h, data, w⟩
  | .rgba w h data x y =>
    bind (tileRect f x y w h fw fh) fun q => bind (u32 (w * 4)) fun row =>
      .ok ⟨⟨q.1, q.2.1, q.2.2.1, q.2.2.2, ⟨0, 0, 0, 0⟩, true⟩, .rgba8, w, h, data, row⟩

/-- `PooledTile`, pool.rs lines 114-121; the texture is known by its number. -/
structure Tile where
  id : Nat
  fmt : Fmt
  w : Nat
  h : Nat
deriving DecidableEq

/-- The tile has this key. -/
def Tile.fits (fmt : Fmt) (w h : Nat) (t : Tile) : Bool := decide (t.fmt = fmt ∧ t.w = w ∧ t.h = h)

/-- The textures ever made, by number, and the free tiles (`TilePool`, pool.rs lines 150-152).  One list, the last released
first, in place of a map to stacks: only the order among tiles of one key matters. -/
structure Heap where
  textures : List (List Nat)
  free : List Tile

/-- `TilePool::acquire`, pool.rs lines 164-177, with `create_tile`, lines 188-222. -/
def acquire (dev : Device) (hp : Heap) (fmt : Fmt) (w h : Nat) : Outcome (Tile × Heap) :=
  match hp.free.find? (Tile.fits fmt w h) with
  | some t => .ok (t, ⟨hp.textures, hp.free.eraseP (Tile.fits fmt w h)⟩)
  | none =>
    if 1 ≤ w ∧ 1 ≤ h ∧ w ≤ dev.maxSide ∧ h ≤ dev.maxSide then
      .ok (⟨hp.textures.length, fmt, w, h⟩, ⟨hp.textures ++ [[]], hp.free⟩)
    else .panic

/-- `TilePool::release`, pool.rs lines 180-184. -/
def release (hp : Heap) (tiles : List Tile) : Heap := ⟨hp.textures, tiles.reverse ++ hp.free⟩

/-- `PooledTile::upload`, pool.rs lines 125-146.  Rows of `rowBytes` bytes, which is always the width of the texture. -/
def upload (hp : Heap) (t : Tile) (data : List Nat) (rowBytes : Nat) : Outcome Heap :=
  if rowBytes = t.w * t.fmt.size ∧ t.w * t.h * t.fmt.size ≤ data.length then
    .ok ⟨hp.textures.set t.id (data.take (t.w * t.h * t.fmt.size)), hp.free⟩
  else .panic

/-- The tiles of `prepare_tiles`, compositor/tiles.rs lines 31-46, and their uniforms in order. -/
def prepare (dev : Device) (fw fh : Nat) : List Bitmap → Heap → Outcome (List Tile × List Quad × Heap)
  | [], hp => .ok ([], [], hp)
  | b :: bs, hp =>
    bind (describe dev.f32 fw fh b) fun d => bind (acquire dev hp d.fmt d.w d.h) fun t =>
    bind (upload t.2 t.1 d.data d.rowBytes) fun hp => bind (prepare dev fw fh bs hp) fun r =>
      .ok (t.1 :: r.1, d.quad :: r.2.1, r.2.2)

/-- `Uniforms`, compositor/mod.rs lines 40-44: the capacity, and the quads that lie at the multiples of the stride. -/
structure Uniforms where
  capacity : Nat
  quads : List Quad

/-- A target: `Target`, `Layer` and `Screen` (target.rs, layer.rs); the pixels by column and row. -/
structure Surface where
  w : Nat
  h : Nat
  pixels : Nat → Nat → Px

/-- `Compositor`, compositor/mod.rs lines 52-66, without the pipelines and layouts, and the textures. -/
structure Gpu where
  stride : Nat
  heap : Heap
  uniforms : Option Uniforms
  target : Option (Nat × Nat)
  layer : Option Surface
  screen : Option Surface
  formats : List Nat

/-- `n.div_ceil(d) * d` with `u32` overflow. -/
def roundUp (n d : Nat) : Outcome Nat := u32 ((n + d - 1) / d * d)

/-- `Compositor::new`, compositor/mod.rs lines 70-98. -/
def new (dev : Device) : Outcome Gpu :=
  bind (roundUp uniformSize dev.align) fun stride => .ok ⟨stride, ⟨[], []⟩, none, none, none, none, []⟩

/-- `u32::next_power_of_two`. -/
def nextPow2 (n : Nat) : Nat := if n ≤ 1 then 1 else 2 ^ (Nat.log2 (n - 1) + 1)

/-- `ensure_uniforms`, compositor/mod.rs lines 139-173.  A new buffer holds nothing that is read. -/
def ensureUniforms (dev : Device) (g : Gpu) (count : Nat) : Outcome Gpu :=
  match count, g.uniforms with
  | 0, _ => .ok g
  | count + 1, some u => if count + 1 ≤ u.capacity then .ok g else fresh (count + 1)
  | count + 1, none => fresh (count + 1)
where
  /-- The new buffer. -/
  fresh (count : Nat) : Outcome Gpu :=
    bind (u32 (nextPow2 count)) fun capacity =>
      if g.stride * capacity ≤ dev.maxBuffer then .ok { g with uniforms := some ⟨capacity, []⟩ } else .panic

/-- `queue.write_buffer(&uniforms.buffer, 0, …)`: the quads at the multiples of the stride from the start. -/
def writeQuads (quads : List Quad) (u : Uniforms) : Outcome Uniforms :=
  if quads.length ≤ u.capacity then .ok ⟨u.capacity, quads ++ u.quads.drop quads.length⟩ else .panic

/-- The end of `prepare_tiles`, compositor/tiles.rs lines 47-51. -/
def writeUniforms (g : Gpu) (quads : List Quad) : Outcome Gpu :=
  match g.uniforms with
  | none => .ok g
  | some u => if quads = [] then .ok g else bind (writeQuads quads u) fun u => .ok { g with uniforms := some u }

/-- `prepare_tiles`, compositor/tiles.rs lines 18-53. -/
def prepareTiles (dev : Device) (g : Gpu) (bs : List Bitmap) (fw fh : Nat) : Outcome (List Tile × Gpu) :=
  bind (ensureUniforms dev g (min bs.length 4294967295)) fun g => bind (prepare dev fw fh bs g.heap) fun r =>
  bind (writeUniforms { g with heap := r.2.2 } r.2.1) fun g => .ok (r.1, g)

/-- What a draw reads at a dynamic offset of the uniform buffer. -/
def quadAt (dev : Device) (stride : Nat) (u : Uniforms) (offset : Nat) : Outcome Quad :=
  if offset % dev.align = 0 ∧ offset + uniformSize ≤ stride * u.capacity then
    match u.quads[offset / stride]? with
    | some q => .ok q
    | none => .panic
  else .panic

/-- The texel of a quad that a pixel of a target sees, shader.rs `vs_main` and the sampler: column and row; `none`: the pixel is
outside of the quad. -/
def hit (q : Quad) (tw th w h : Nat) (px py : Nat) : Option (Nat × Nat) :=
  let cx : Rat := (2 * (px : Rat) + 1) / tw - 1
  let cy : Rat := 1 - (2 * (py : Rat) + 1) / th
  if q.left ≤ cx ∧ cx < q.right ∧ q.bottom < cy ∧ cy ≤ q.top then
    some (((cx - q.left) / (q.right - q.left) * w).floor.toNat, ((q.top - cy) / (q.top - q.bottom) * h).floor.toNat)
  else none

/-- `fs_main`, shader.rs. -/
def shade (q : Quad) (texel : Colour) : Colour :=
  if q.rgba then texel
  else
    let a := q.colour.a * texel.r
    ⟨q.colour.r * a, q.colour.g * a, q.colour.b * a, a⟩

/-- `One` / `OneMinusSrcAlpha`, pipeline.rs lines 119-123, in one channel. -/
def blendChannel (store : Rat → Nat) (s a : Rat) (d : Nat) : Nat := store (s + unit d * (1 - a))

/-- The blend of a fragment over a pixel. -/
def blend (store : Rat → Nat) (s : Colour) (d : Px) : Px :=
  ⟨blendChannel store s.r s.a d.r, blendChannel store s.g s.a d.g, blendChannel store s.b s.a d.b, blendChannel store s.a s.a d.a⟩

/-- A quad with a texture of size `w`×`h`, drawn over a target of size `tw`×`th`. -/
def drawQuad (store : Rat → Nat) (q : Quad) (w h : Nat) (texel : Nat → Nat → Colour) (tw th : Nat) (pic : Nat → Nat → Px) :
    Nat → Nat → Px := fun px py =>
  match hit q tw th w h px py with
  | some c => blend store (shade q (texel c.1 c.2)) (pic px py)
  | none => pic px py

/-- The texel of a tile's texture. -/
def texelOf (fmt : Fmt) (w : Nat) (data : List Nat) (col row : Nat) : Colour :=
  match fmt with
  | .r8 => ⟨unit (data.getD (row * w + col) 0), 0, 0, 1⟩
  | .rgba8 =>
    let i := (row * w + col) * 4
    ⟨unit (data.getD i 0), unit (data.getD (i + 1) 0), unit (data.getD (i + 2) 0), unit (data.getD (i + 3) 0)⟩

/-- The draws of `draw_tiles_pass`, compositor/tiles.rs lines 81-87. -/
def drawTiles (dev : Device) (stride : Nat) (u : Uniforms) (textures : List (List Nat)) (tw th : Nat) :
    List Tile → Nat → (Nat → Nat → Px) → Outcome (Nat → Nat → Px)
  | [], _, pic => .ok pic
  | t :: ts, offset, pic =>
    bind (quadAt dev stride u offset) fun q => bind (u32 (offset + stride)) fun next =>
      drawTiles dev stride u textures tw th ts next
        (drawQuad dev.store q t.w t.h (texelOf t.fmt t.w (textures.getD t.id [])) tw th pic)

/-- A cleared target. -/
def clear (p : Px) : Nat → Nat → Px := fun _ _ => p

/-- `draw_tiles_pass`, compositor/tiles.rs lines 57-89. -/
def drawPass (dev : Device) (g : Gpu) (tiles : List Tile) (tw th : Nat) : Outcome (Nat → Nat → Px) :=
  match g.uniforms with
  | none => .ok (clear ⟨0, 0, 0, 0⟩)
  | some u => drawTiles dev g.stride u g.heap.textures tw th tiles 0 (clear ⟨0, 0, 0, 0⟩)

/-- The size of a target is allowed. -/
def sideOk (dev : Device) (w h : Nat) : Bool := decide (1 ≤ w ∧ 1 ≤ h ∧ w ≤ dev.maxSide ∧ h ≤ dev.maxSide)

/-- `Readback::new`, readback.rs lines 22-37: the padded length of a row. -/
def readbackRow (dev : Device) (w h : Nat) : Outcome Nat :=
  bind (u32 (w * 4)) fun row => bind (roundUp row 256) fun padded =>
    if padded * h ≤ dev.maxBuffer then .ok padded else .panic

/-- The bytes of one row of a target. -/
def rowBytes (pixels : Nat → Nat → Px) (w y : Nat) : List Nat :=
  (List.range w).flatMap fun x => [(pixels x y).r, (pixels x y).g, (pixels x y).b, (pixels x y).a]

/-- `Readback::copy_from`, readback.rs lines 40-62: the buffer afterwards, row after row with the padding. -/
def copyFrom (dev : Device) (s : Surface) (padded : Nat) : List Nat :=
  (List.range s.h).flatMap fun y => rowBytes s.pixels s.w y ++ (List.range (padded - s.w * 4)).map (dev.padding y)

/-- The rows of `Readback::read`, readback.rs lines 83-90. -/
def readRows (mapped : List Nat) (padded row : Nat) : Nat → Nat → Outcome (List Nat)
  | 0, _ => .ok []
  | n + 1, y => bind (slice mapped (y * padded) row) fun a => bind (readRows mapped padded row n (y + 1)) fun r => .ok (a ++ r)

/-- Copying a surface and reading it, readback.rs; `none`: mapping the buffer failed. -/
def readBack (dev : Device) (s : Surface) (mapOk : Bool) : Outcome (Option (List Nat)) :=
  bind (readbackRow dev s.w s.h) fun padded =>
    if mapOk then bind (readRows (copyFrom dev s padded) padded (s.w * 4) s.h 0) fun out => .ok (some out) else .ok none

/-- `ensure_target` and `ensure_layer`, compositor/mod.rs lines 102-123: the texture and its read-back buffer are made. -/
def makeSurface (dev : Device) (w h : Nat) : Outcome Unit :=
  if sideOk dev w h then bind (readbackRow dev w h) fun _ => .ok () else .panic

/-- `ensure_target`, compositor/mod.rs lines 102-111. -/
def ensureTarget (dev : Device) (g : Gpu) (w h : Nat) : Outcome Gpu :=
  if g.target = some (w, h) then .ok g else bind (makeSurface dev w h) fun _ => .ok { g with target := some (w, h) }

/-- `Layer::matches` and `Screen::matches`, layer.rs lines 73-75 and 133-135. -/
def matchesSize (s : Option Surface) (w h : Nat) : Bool :=
  match s with
  | some s => decide (s.w = w ∧ s.h = h)
  | none => false

/-- `composite`, compositor/mod.rs lines 178-210; `none` is an error.  When reading fails the tiles are not released. -/
def composite (dev : Device) (g : Gpu) (bs : List Bitmap) (w h : Nat) (mapOk : Bool) : Outcome (Gpu × Option (List Nat)) :=
  if w = 0 ∨ h = 0 then .ok (g, none)
  else bind (ensureTarget dev g w h) fun g => bind (prepareTiles dev g bs w h) fun t =>
    bind (drawPass dev t.2 t.1 w h) fun pic => bind (readBack dev ⟨w, h, pic⟩ mapOk) fun out =>
      match out with
      | some out => .ok ({ t.2 with heap := release t.2.heap t.1 }, some out)
      | none => .ok (t.2, none)

/-- `ensure_layer`, compositor/mod.rs lines 114-123; a new layer is cleared before it is read. -/
def ensureLayer (dev : Device) (g : Gpu) (w h : Nat) : Outcome Gpu :=
  if matchesSize g.layer w h then .ok g
  else bind (makeSurface dev w h) fun _ => .ok { g with layer := some ⟨w, h, clear ⟨0, 0, 0, 0⟩⟩ }

/-- `render_layer`, compositor/mod.rs lines 216-245; `false` is an error.  The texture keeps the size it was made with. -/
def renderLayer (dev : Device) (g : Gpu) (bs : List Bitmap) (w h : Nat) : Outcome (Gpu × Bool) :=
  if w = 0 ∨ h = 0 then .ok (g, false)
  else bind (ensureLayer dev g w h) fun g => bind (prepareTiles dev g bs w h) fun t =>
    bind (drawPass dev t.2 t.1 w h) fun pic =>
      .ok ({ t.2 with heap := release t.2.heap t.1, layer := t.2.layer.map fun l => ⟨l.w, l.h, pic⟩ }, true)

/-- `Background`, compositor/present.rs lines 20-25: a colour as it is stored, or a texture. -/
inductive Background where
  | colour (p : Px)
  | texture (s : Surface)

/-- The texel of a target that is sampled. -/
def texelPx (pixels : Nat → Nat → Px) (col row : Nat) : Colour :=
  ⟨unit (pixels col row).r, unit (pixels col row).g, unit (pixels col row).b, unit (pixels col row).a⟩

/-- Number of quads, compositor/mod.rs lines 272-276 and 318-322. -/
def quadCount : Background → Nat
  | .colour _ => 1
  | .texture _ => 2

/-- `encode`, compositor/present.rs lines 95-170, onto a view of size `w`×`h`; `none` is an error. -/
def encode (dev : Device) (g : Gpu) (layer : Surface) (bg : Background) (w h : Nat) : Outcome (Gpu × Option (Nat → Nat → Px)) :=
  match g.uniforms with
  | none => .ok (g, none)
  | some u =>
    bind (writeQuads (List.replicate (quadCount bg) fullFrame) u) fun u =>
      match bg with
      | .colour p =>
        bind (quadAt dev g.stride u 0) fun q =>
          .ok ({ g with uniforms := some u }, some (drawQuad dev.store q layer.w layer.h (texelPx layer.pixels) w h (clear p)))
      | .texture s =>
        bind (quadAt dev g.stride u 0) fun q0 => bind (u32 (0 + g.stride)) fun offset => bind (quadAt dev g.stride u offset) fun q1 =>
          .ok ({ g with uniforms := some u }, some (drawQuad dev.store q1 layer.w layer.h (texelPx layer.pixels) w h
            (drawQuad dev.store q0 s.w s.h (texelPx s.pixels) w h (clear ⟨0, 0, 0, 0⟩))))

/-- `ensure_screen`, compositor/mod.rs lines 126-135. -/
def ensureScreen (dev : Device) (g : Gpu) (w h : Nat) : Outcome Gpu :=
  if matchesSize g.screen w h then .ok g
  else if sideOk dev w h then .ok { g with screen := some ⟨w, h, clear ⟨0, 0, 0, 0⟩⟩ } else .panic

/-- `present_over`, compositor/mod.rs lines 251-279; the picture is left on the screen surface.  `false` is an error. -/
def presentOver (dev : Device) (g : Gpu) (bg : Background) (w h : Nat) : Outcome (Gpu × Bool) :=
  if w = 0 ∨ h = 0 then .ok (g, false)
  else match g.layer with
    | none => .ok (g, false)
    | some l =>
      if l.w = w ∧ l.h = h then
        bind (ensureScreen dev g w h) fun g => bind (ensureUniforms dev g (quadCount bg)) fun g =>
        bind (encode dev g l bg w h) fun r =>
          match r.2 with
          | some pic => .ok ({ r.1 with screen := r.1.screen.map fun s => ⟨s.w, s.h, pic⟩ }, true)
          | none => .ok (r.1, false)
      else .ok (g, false)

/-- `present_to_view`, compositor/mod.rs lines 297-334, onto a view of size `w`×`h` and of a format; what the view shows
afterwards, `none` for an error. -/
def presentToView (dev : Device) (g : Gpu) (bg : Background) (format w h : Nat) : Outcome (Gpu × Option (Nat → Nat → Px)) :=
  if w = 0 ∨ h = 0 then .ok (g, none)
  else match g.layer with
    | none => .ok (g, none)
    | some l =>
      if l.w = w ∧ l.h = h then
        bind (ensureUniforms dev g (quadCount bg)) fun g =>
          encode dev { g with formats := if format ∈ g.formats then g.formats else format :: g.formats } l bg w h
      else .ok (g, none)

/-- `layer_to_bytes`, compositor/mod.rs lines 339-353; `none` is an error. -/
def layerToBytes (dev : Device) (g : Gpu) (mapOk : Bool) : Outcome (Option (List Nat)) :=
  match g.layer with
  | none => .ok none
  | some l => readBack dev l mapOk

/-- A call of the compositor. -/
inductive Op where
  | composite (bs : List Bitmap) (w h : Nat) (mapOk : Bool)
  | renderLayer (bs : List Bitmap) (w h : Nat)
  | presentOver (bg : Background) (w h : Nat)
  | presentToView (bg : Background) (format w h : Nat)

/-- The compositor after a call. -/
def step (dev : Device) (g : Gpu) : Op → Outcome Gpu
  | .composite bs w h m => bind (composite dev g bs w h m) fun r => .ok r.1
  | .renderLayer bs w h => bind (renderLayer dev g bs w h) fun r => .ok r.1
  | .presentOver bg w h => bind (presentOver dev g bg w h) fun r => .ok r.1
  | .presentToView bg f w h => bind (presentToView dev g bg f w h) fun r => .ok r.1

/-- The compositor after calls. -/
def run (dev : Device) (g : Gpu) : List Op → Outcome Gpu
  | [] => .ok g
  | op :: ops => bind (step dev g op) fun g => run dev g ops

/-- `composite_bitmap` of the software backend, backends/coverage/composite.rs lines 76-101. -/
def softwareBitmap (simd : Bool) (dst : List Nat) (dw dh : Nat) : Bitmap → Outcome (List Nat)
  | .coverage w h data x y r g b a => Blend.composite simd dst dw dh data w h x y r g b a
  | .rgba w h data x y => Blend.compositeRgba dst dw dh data w h x y

/-- The software backend's bitmaps one after the other. -/
def software (simd : Bool) (dw dh : Nat) : List Bitmap → List Nat → Outcome (List Nat)
  | [], dst => .ok dst
  | b :: bs, dst => bind (softwareBitmap simd dst dw dh b) fun dst => software simd dw dh bs dst

end Verif.Gpu
