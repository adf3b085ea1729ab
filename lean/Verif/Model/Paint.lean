import Verif.Model.Map
import Verif.Model.Color
/-!
# Painting text — `crates/ass-renderer/src/backends/software/text/*.rs`, `backends/software/cache/*.rs`

`f32` numbers are exact rationals.  Shaping, glyph outlines, perspective projection, rasterising, sine and cosine are parameters
(`Env`); that they fail is not modelled.  What is painted on the frame is a list of what is filled, in order; outlines of several
glyphs are one shape (the code merges them or fills them one after another).  Frames are painted directly (no bitmap list).
-/
namespace Verif.Paint
open Verif
open Verif.Color (Rgba)

/-- `TextEffect`, pipeline/mod.rs. -/
inductive Effect where
  | bold | italic | underline | strikethrough
  | opaqueBox (c : Rgba) (x y : Rat)
  | outline (c : Rgba) (x y : Rat)
  | shadow (c : Rgba) (x y : Rat)
  | blur (r : Rat)
  | edgeBlur (r : Rat)
  | rotation (x y z : Rat) (origin : Option (Rat × Rat))
  | shear (x y : Rat)
  | scale (x y : Rat)
  | clip (x1 y1 x2 y2 : Rat) (inverse : Bool)
  | karaoke (progress : Rat) (style : Nat) (secondary : Rgba)
deriving DecidableEq

/-- `TextData`, pipeline/mod.rs. -/
structure Data where
  text : Str
  font : Str
  size : Rat
  spacing : Rat
  color : Rgba
  x : Rat
  y : Rat
  effects : List Effect

/-- `tiny_skia::Transform`: `x' = sx x + kx y + tx`, `y' = ky x + sy y + ty`. -/
structure Aff where
  sx : Rat
  kx : Rat
  ky : Rat
  sy : Rat
  tx : Rat
  ty : Rat
deriving DecidableEq

/-- The transform of a point. -/
def Aff.map (t : Aff) (p : Rat × Rat) : Rat × Rat := (t.sx * p.1 + t.kx * p.2 + t.tx, t.ky * p.1 + t.sy * p.2 + t.ty)

/-- `pre_concat`: `u` first, then `t`. -/
def Aff.pre (t u : Aff) : Aff :=
  ⟨t.sx * u.sx + t.kx * u.ky, t.sx * u.kx + t.kx * u.sy, t.ky * u.sx + t.sy * u.ky, t.ky * u.kx + t.sy * u.sy,
    t.sx * u.tx + t.kx * u.ty + t.tx, t.ky * u.tx + t.sy * u.ty + t.ty⟩

/-- `from_translate`. -/
def Aff.translate (x y : Rat) : Aff := ⟨1, 0, 0, 1, x, y⟩

/-- `post_translate`. -/
def Aff.moved (t : Aff) (x y : Rat) : Aff := { t with tx := t.tx + x, ty := t.ty + y }

/-- What is shaped and drawn: text, font, size, bold, italic. -/
structure Face where
  text : Str
  font : Str
  size : Rat
  bold : Bool
  italic : Bool
deriving DecidableEq

/-- `ShapedText`, its measures. -/
structure Shaped where
  width : Rat
  height : Rat
  baseline : Rat
  ascent : Rat
  descent : Rat
deriving DecidableEq

/-- What the renderer is given: shaping, outlines (with letter spacing), projection for `\frx` and `\fry`, cosine and sine of an angle
in degrees, and the rasteriser (with an outline's widths) giving a tile and its place. -/
structure Env (G T : Type) where
  shape : Face → Shaped
  glyphs : Face → Rat → G
  project : G → Aff → Rat → Rat → Rat × Rat → G
  cosSin : Rat → Rat × Rat
  raster : G → Aff → Option (Rat × Rat) → Option (T × Int × Int)
  width : T → Nat

/-! ## Preparing a run, prepare.rs lines 29-142 -/

/-- The face of a layer, prepare.rs lines 30-56. -/
def face (d : Data) : Face :=
  ⟨d.text, d.font, d.size, d.effects.any (· == .bold), d.effects.any (· == .italic)⟩

/-- About a centre. -/
def about (t : Aff) (cx cy : Rat) (u : Aff) : Aff := ((t.pre (.translate cx cy)).pre u).pre (.translate (-cx) (-cy))

/-- The centre of a rotation, lines 83-86. -/
def centre (d : Data) (sh : Shaped) (base : Rat) (origin : Option (Rat × Rat)) : Rat × Rat :=
  match origin with
  | some (ox, oy) => (ox - d.x, oy - base)
  | none => (sh.width / 2, sh.height / 2 - sh.baseline)

/-- `Transform::from_rotate` by an angle of which cosine and sine are given. -/
def rotation (cs : Rat × Rat) : Aff := ⟨cs.1, -cs.2, cs.2, cs.1, 0, 0⟩

/-- One effect, lines 70-142: the transform, and the angles and centre of a rotation out of the plane. -/
def turn (cosSin : Rat → Rat × Rat) (d : Data) (sh : Shaped) (base : Rat) (acc : Aff × Option (Rat × Rat × (Rat × Rat)))
    (e : Effect) : Aff × Option (Rat × Rat × (Rat × Rat)) :=
  match e with
  | .rotation x y z origin =>
    let c := centre d sh base origin
    (if z = 0 then acc.1 else about acc.1 c.1 c.2 (rotation (cosSin (-z))),
      if x = 0 ∧ y = 0 then acc.2 else some (x, y, c))
  | .scale x y =>
    let k := if y = 0 then x / 100 else x / y
    (if 1 / 100 < k - 1 ∨ 1 / 100 < 1 - k then about acc.1 (sh.width / 2) 0 ⟨k, 0, 0, 1, 0, 0⟩ else acc.1, acc.2)
  | .shear x y => (about acc.1 (sh.width / 2) (sh.height / 2) ⟨1, x, y, 1, 0, 0⟩, acc.2)
  | _ => acc

/-- The transform of the layer, lines 61-142. -/
def turned (cosSin : Rat → Rat × Rat) (d : Data) (sh : Shaped) : Aff × Option (Rat × Rat × (Rat × Rat)) :=
  d.effects.foldl (turn cosSin d sh (d.y + sh.baseline)) (.translate d.x (d.y + sh.baseline), none)

/-! ## The caches, cache/mod.rs -/

/-- `RunCoverageKey`, lines 29-39; numbers are compared by value (the code compares bits). -/
structure Key where
  face : Face
  spacing : Rat
  outline : Option (Rat × Rat)
  shadow : Option (Rat × Rat)
  transform : Aff
deriving DecidableEq

/-- `CachedCoverage`, lines 77-80. -/
structure Cached (T : Type) where
  fill : Option (T × Int × Int)
  outline : Option (T × Int × Int)
deriving DecidableEq

/-- `BlurTileKey`, lines 49-60. -/
structure BlurKey where
  face : Face
  spacing : Rat
  blur : Rat
  fill : Rgba
  outline : Option (Rgba × Rat × Rat)
  shadow : Option (Rgba × Rat × Rat)
deriving DecidableEq

/-- `\clip`. -/
structure Clip where
  x1 : Rat
  y1 : Rat
  x2 : Rat
  y2 : Rat
  inverse : Bool
deriving DecidableEq

/-- A blurred tile, text/blur.rs lines 57-155, by what is drawn into it: shadow, outline and fill of the outlines `g`, of which the fill is
clipped, in a tile for text of the given measures, blurred. -/
structure BlurTile (G : Type) where
  g : G
  shaped : Shaped
  blur : Rat
  fill : Rgba
  outline : Option (Rgba × Rat × Rat)
  shadow : Option (Rgba × Rat × Rat)
  clip : Option Clip
deriving DecidableEq

/-- The two caches of a thread, lines 85-93. -/
structure State (G T : Type) where
  cov : Map Key (Cached T)
  blur : Map BlurKey (BlurTile G)

/-- Something painted, in the order it is painted. -/
inductive Out (G T : Type) where
  /-- A tile of coverage, or its first columns, in a colour. -/
  | bitmap (t : T) (cols : Option Nat) (x y : Int) (c : Rgba)
  /-- A blurred tile. -/
  | tile (t : BlurTile G) (x y : Rat)
  /-- Transformed outlines, filled or stroked. -/
  | fill (g : G) (t : Aff) (stroke : Option (Rat × Rat)) (c : Rgba) (clip : Option Clip)
  /-- The part of the transformed outlines left of the sung share of their width. -/
  | swept (g : G) (t : Aff) (progress : Rat) (c : Rgba)
  /-- The padded bounds of the transformed outlines. -/
  | box (g : G) (t : Aff) (px py : Rat) (c : Rgba) (clip : Option Clip)
  /-- The stroked outlines, blurred. -/
  | edge (g : G) (t : Aff) (wx wy radius : Rat) (c : Rgba) (clip : Option Clip)
  /-- A horizontal line. -/
  | line (x0 x1 y width : Rat) (c : Rgba) (clip : Option Clip)
deriving DecidableEq

/-- What `coverage_key` collects from the effects, cache/mod.rs lines 127-137. -/
structure Look where
  outline : Option (Rgba × Rat × Rat)
  shadow : Option (Rgba × Rat × Rat)
  fill : Rgba
  sweep : Option (Rat × Rgba)
deriving DecidableEq

/-- One effect, lines 138-170 (bold and italic are taken from `face`). -/
def collect (color : Rgba) (l : Look) (e : Effect) : Option Look :=
  match e with
  | .outline c x y => some { l with outline := some (c, x, y) }
  | .shadow c x y => some { l with shadow := some (c, x, y) }
  | .bold => some l
  | .italic => some l
  | .rotation .. => some l
  | .scale .. => some l
  | .shear .. => some l
  | .karaoke p style sec =>
    if style = 0 then some { l with fill := if 0 < p then color else sec } else some { l with sweep := some (p, sec) }
  | _ => none

/-- The loop over the effects, lines 138-170. -/
def collectAll (color : Rgba) : List Effect → Look → Option Look
  | [], l => some l
  | e :: es, l =>
    match collect color l e with
    | some l' => collectAll color es l'
    | none => none

/-- `coverage_key`, lines 113-194: the key and the look. -/
def coverageKey (d : Data) (base : Aff) (bl : Rat) : Option (Key × Look) :=
  match collectAll d.color d.effects ⟨none, none, d.color, none⟩ with
  | none => none
  | some l =>
    some (⟨face d, d.spacing, l.outline.map (fun o => (o.2.1, o.2.2)), l.shadow.map (fun s => (s.2.1, s.2.2)),
      base.moved (-d.x) (-bl)⟩, l)

/-- `f32::round`: half away from zero. -/
def round (q : Rat) : Int := if 0 ≤ q then (q + 1 / 2).floor else -(-q + 1 / 2).floor

/-- `shadow_delta`, geometry.rs lines 109-114. -/
def shadowDelta (t : Aff) (sx sy : Rat) : Int × Int := (round (sx * t.sx + sy * t.kx), round (sx * t.ky + sy * t.sy))

/-- The columns sung so far, blur_tile.rs lines 60-62. -/
def sweepCols (p : Rat) (w : Nat) : Nat := min (round (1 + p * ((w : Rat) - 2))).toNat w

/-- `crop_coverage_columns`, blur_tile.rs lines 83-96, for a tile given by its rows one after another. -/
def cropColumns (width height : Nat) (data : List Nat) (cols : Nat) : List Nat :=
  (List.range height).flatMap (fun y => (data.drop (y * width)).take (min cols width))

/-- The fill of `emit_cached`, blur_tile.rs lines 45-76. -/
def emitFill {G T : Type} (env : Env G T) (f : T × Int × Int) (ax ay : Int) (c : Rgba) (sweep : Option (Rat × Rgba)) :
    List (Out G T) :=
  let x := ax + f.2.1
  let y := ay + f.2.2
  match sweep with
  | none => [.bitmap f.1 none x y c]
  | some (p, sec) =>
    if p ≤ 0 then [.bitmap f.1 none x y sec]
    else if 1 ≤ p then [.bitmap f.1 none x y c]
    else
      .bitmap f.1 none x y sec ::
        (if 0 < sweepCols p (env.width f.1) then [.bitmap f.1 (some (sweepCols p (env.width f.1))) x y c] else [])

/-- The shadow of `emit_cached`, blur_tile.rs lines 39-41, with the displacement of coverage.rs line 60. -/
def emitShadow {G T : Type} (l : Look) (t : Aff) (fill : Option (T × Int × Int)) (ax ay : Int) : List (Out G T) :=
  match l.shadow, fill with
  | some (c, sx, sy), some f =>
    [.bitmap f.1 none (ax + f.2.1 + (shadowDelta t sx sy).1) (ay + f.2.2 + (shadowDelta t sx sy).2) c]
  | _, _ => []

/-- The outline of `emit_cached`, blur_tile.rs lines 42-44. -/
def emitOutline {G T : Type} (l : Look) (outline : Option (T × Int × Int)) (ax ay : Int) : List (Out G T) :=
  match l.outline, outline with
  | some (c, _, _), some o => [.bitmap o.1 none (ax + o.2.1) (ay + o.2.2) c]
  | _, _ => []

/-- `emit_cached`, blur_tile.rs lines 16-78, anchored as in coverage.rs lines 61-62. -/
def emit {G T : Type} (env : Env G T) (c : Cached T) (d : Data) (bl : Rat) (k : Key) (l : Look) : List (Out G T) :=
  emitShadow l k.transform c.fill (round d.x) (round bl) ++ emitOutline l c.outline (round d.x) (round bl) ++
    (match c.fill with
    | some f => emitFill env f (round d.x) (round bl) l.fill l.sweep
    | none => [])

/-- `rasterize_run_coverage`, coverage.rs lines 10-30. -/
def rasterize {G T : Type} (env : Env G T) (g : G) (k : Key) : Cached T :=
  ⟨env.raster g k.transform none, k.outline.bind (fun o => env.raster g k.transform (some o))⟩

/-- The first result over the effects (`find_map`). -/
def first {α : Type} (f : Effect → Option α) (d : Data) : Option α := d.effects.findSome? f

/-- `Outline`. -/
def asOutline : Effect → Option (Rgba × Rat × Rat)
  | .outline c x y => some (c, x, y)
  | _ => none

/-- `Shadow`. -/
def asShadow : Effect → Option (Rgba × Rat × Rat)
  | .shadow c x y => some (c, x, y)
  | _ => none

/-- `Blur`. -/
def asBlur : Effect → Option Rat
  | .blur r => some r
  | _ => none

/-- `EdgeBlur`. -/
def asEdge : Effect → Option Rat
  | .edgeBlur r => some r
  | _ => none

/-- `Clip`; that a mask cannot be made is not modelled. -/
def asClip : Effect → Option Clip
  | .clip x1 y1 x2 y2 i => some ⟨x1, y1, x2, y2, i⟩
  | _ => none

/-- `Karaoke`. -/
def asKaraoke : Effect → Option (Rat × Nat × Rgba)
  | .karaoke p s c => some (p, s, c)
  | _ => none

/-- The effects with which the blurred tile is all there is, blur_tile.rs lines 147-159. -/
def eligible : Effect → Bool
  | .blur _ | .outline .. | .shadow .. | .bold | .italic | .rotation .. | .scale .. | .shear .. => true
  | _ => false

/-- The key of a blurred tile, blur_tile.rs lines 189-200 and text/blur.rs lines 38-49. -/
def blurKey (d : Data) (r : Rat) : BlurKey := ⟨face d, d.spacing, r, d.color, first asOutline d, first asShadow d⟩

/-- Where a blurred tile is put, blur_tile.rs lines 205-209 and text/blur.rs lines 182-185. -/
def putTile {G T : Type} (d : Data) (bl : Rat) (sh : Shaped) (r : Rat) (t : BlurTile G) : Out G T :=
  .tile t (d.x - ((r * 3).ceil : Rat)) (bl - ((r * 3).ceil : Rat) - sh.ascent)

/-- `blur_tile_hit`, blur_tile.rs lines 137-248. -/
def blurHit {G T : Type} (d : Data) (bl : Rat) (sh : Shaped) (s : State G T) : Option (List (Out G T)) :=
  if d.effects.all eligible then
    match first asBlur d with
    | none => none
    | some r =>
      match s.blur.get (blurKey d r) with
      | none => none
      | some t => some [putTile d bl sh r t]
  else none

/-! ## The vector path, text/{mod,decorations,fills,blur}.rs -/

/-- `draw_text_shadow`, decorations.rs lines 16-53. -/
def drawShadow {G T : Type} (d : Data) (g : G) (t : Aff) : List (Out G T) :=
  match first asBlur d, first asShadow d with
  | none, some (c, sx, sy) =>
    let st := t.pre (.translate sx sy)
    (match first asOutline d with
      | some (_, wx, wy) => [.fill g st (some (wx, wy)) c (first asClip d)]
      | none => []) ++ [.fill g st none c (first asClip d)]
  | _, _ => []

/-- `draw_opaque_box`, decorations.rs lines 57-102, for one effect. -/
def drawBox {G T : Type} (d : Data) (g : G) (t : Aff) (e : Effect) : List (Out G T) :=
  match e with
  | .opaqueBox c px py => [.box g t px py c (first asClip d)]
  | _ => []

/-- `draw_text_outline`, decorations.rs lines 108-208, for one effect. -/
def drawOutline {G T : Type} (d : Data) (g : G) (t : Aff) (e : Effect) : List (Out G T) :=
  match e with
  | .outline c wx wy =>
    match first asEdge d with
    | some r => if 0 < r then [.edge g t wx wy r c (first asClip d)] else []
    | none => if (first asBlur d).isNone then [.fill g t (some (wx, wy)) c (first asClip d)] else []
  | _ => []

/-- The share of a colour, fills.rs line 122. -/
def lerp (p : Rat) (s e : Nat) : Nat := min ((s : Rat) * (1 - p) + (e : Rat) * p).floor.toNat 255

/-- The colour of a syllable filled in one colour, fills.rs lines 111-129. -/
def syllableColor (primary secondary : Rgba) (p : Rat) (style : Nat) : Rgba :=
  if style = 0 then (if 0 < p then primary else secondary)
  else if 1 ≤ p then primary
  else if p ≤ 0 then secondary
  else ⟨lerp p secondary.r primary.r, lerp p secondary.g primary.g, lerp p secondary.b primary.b, primary.a⟩

/-- `draw_karaoke_text`, fills.rs lines 14-143. -/
def drawKaraoke {G T : Type} (d : Data) (g : G) (t : Aff) (k : Rat × Nat × Rgba) : List (Out G T) :=
  if k.2.1 ≠ 0 ∧ 0 < k.1 ∧ k.1 < 1 ∧ (first asClip d).isNone then [.fill g t none k.2.2 none, .swept g t k.1 d.color]
  else [.fill g t none (syllableColor d.color k.2.2 k.1 k.2.1) (first asClip d)]

/-- Keeping a blurred tile, text/blur.rs lines 157-165. -/
def storeBlur {G : Type} (m : Map BlurKey (BlurTile G)) (k : BlurKey) (t : BlurTile G) : Map BlurKey (BlurTile G) :=
  Map.insert (if 512 ≤ m.length then [] else m) k t

/-- Keeping coverage, coverage.rs lines 105-112. -/
def storeCov {T : Type} (m : Map Key (Cached T)) (k : Key) (c : Cached T) : Map Key (Cached T) :=
  Map.insert (if 256 ≤ m.length then [] else m) k c

/-- `draw_blurred_text`, text/blur.rs lines 18-194. -/
def drawBlurred {G T : Type} (d : Data) (g : G) (bl : Rat) (sh : Shaped) (r : Rat) (s : State G T) : List (Out G T) × State G T :=
  let fresh : BlurTile G := ⟨g, sh, r, d.color, first asOutline d, first asShadow d, first asClip d⟩
  match first asClip d with
  | some _ => ([putTile d bl sh r fresh], s)
  | none =>
    match s.blur.get (blurKey d r) with
    | some t => ([putTile d bl sh r t], s)
    | none =>
      ([putTile d bl sh r fresh], { s with blur := storeBlur s.blur (blurKey d r) fresh })

/-- The fill, text/mod.rs lines 77-83. -/
def drawMain {G T : Type} (d : Data) (g : G) (t : Aff) (bl : Rat) (sh : Shaped) (s : State G T) : List (Out G T) × State G T :=
  match first asBlur d with
  | some r => drawBlurred d g bl sh r s
  | none =>
    match first asKaraoke d with
    | some k => (drawKaraoke d g t k, s)
    | none => ([.fill g t none d.color (first asClip d)], s)

/-- `draw_text_decorations`, decorations.rs lines 212-268. -/
def drawLines {G T : Type} (d : Data) (bl : Rat) (sh : Shaped) : List (Out G T) :=
  (if d.effects.any (· == .underline) then
    [.line d.x (d.x + sh.width) (bl - sh.descent / 2) (d.size * (8 / 100)) d.color (first asClip d)] else []) ++
  (if d.effects.any (· == .strikethrough) then
    [.line d.x (d.x + sh.width) (bl - sh.ascent / 3) (d.size * (6 / 100)) d.color (first asClip d)] else [])

/-- What is drawn when no cached coverage serves, text/mod.rs lines 64-87. -/
def drawVector {G T : Type} (d : Data) (g : G) (t : Aff) (bl : Rat) (sh : Shaped) (s : State G T) : List (Out G T) × State G T :=
  let m := drawMain d g t bl sh s
  (drawShadow d g t ++ d.effects.flatMap (drawBox d g t) ++ d.effects.flatMap (drawOutline d g t) ++ m.1 ++ drawLines d bl sh, m.2)

/-- What is painted for a layer without a rotation out of the plane: prepare.rs lines 149-208, coverage.rs lines 49-137. -/
def drawFlat {G T : Type} (env : Env G T) (d : Data) (t : Aff) (s : State G T) : List (Out G T) × State G T :=
  let sh := env.shape (face d)
  let bl := d.y + sh.baseline
  let g := env.glyphs (face d) d.spacing
  match coverageKey d t bl with
  | some (k, l) =>
    match s.cov.get k with
    | some c => (emit env c d bl k l, s)
    | none =>
      let c := rasterize env g k
      (emit env c d bl k l, { s with cov := storeCov s.cov k c })
  | none =>
    match blurHit d bl sh s with
    | some o => (o, s)
    | none => drawVector d g t bl sh s

/-- `draw_text_layer`, text/mod.rs lines 59-88 with prepare.rs.  A layer with a key for coverage has no blur, so that
`blur_tile_hit` does nothing for it. -/
def drawText {G T : Type} (env : Env G T) (d : Data) (s : State G T) : List (Out G T) × State G T :=
  let sh := env.shape (face d)
  let bl := d.y + sh.baseline
  match turned env.cosSin d sh with
  | (t, none) => drawFlat env d t s
  | (t, some (ax, ay, c)) =>
    drawVector d (env.project (env.glyphs (face d) d.spacing) t ax ay (t.map c)) (.translate 0 0) bl sh s

/-- Layers one after another. -/
def drawAll {G T : Type} (env : Env G T) : List Data → State G T → List (List (Out G T)) × State G T
  | [], s => ([], s)
  | d :: ds, s =>
    let r := drawText env d s
    let rest := drawAll env ds r.2
    (r.1 :: rest.1, rest.2)

end Verif.Paint
