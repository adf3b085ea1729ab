import Verif.Model.Outcome
import Verif.Model.Map
import Verif.Model.Str
/-!
# Shaped text and glyph outlines — `crates/ass-renderer/src/pipeline/shaping/{shape,font_metrics,glyph_renderer,mod}.rs`

`f32` numbers are exact.  What `rustybuzz` gives for a text (glyph numbers, offsets and advances in font units), the tables of a font and
its outlines are inputs.
-/
namespace Verif.Shape
open Verif

/-- The tables of a font that are used: units per em, the Windows ascender and descender of the OS/2 table if it has one, ascender,
descender and line gap of hhea, the horizontal extent of a glyph, its outline.  The segments of an outline are in order; a move, line,
quadratic or cubic curve has one, one, two, three points, a closing none. -/
structure Face where
  unitsPerEm : Nat
  os2 : Option (Int × Int)
  ascender : Int
  descender : Int
  lineGap : Int
  bbox : Nat → Option (Int × Int)
  outline : Nat → List (List (Rat × Rat))

/-- `FontMetrics`, font_metrics.rs lines 7-18. -/
structure Metrics where
  ascender : Rat
  descender : Rat
  lineGap : Rat
  unitsPerEm : Rat
  usesOs2 : Bool
deriving DecidableEq

/-- lines 48-59. -/
def hhea (f : Face) : Metrics := ⟨(f.ascender : Rat), (f.descender : Rat), (f.lineGap : Rat), (f.unitsPerEm : Rat), false⟩

/-- `FontMetrics::from_face`, lines 25-60.  The absolute value of -32768 (an overflow in the code) is 32768 here. -/
def metrics (f : Face) : Metrics :=
  match f.os2 with
  | some (a, d) => if a ≠ 0 then ⟨(a.natAbs : Rat), -(d.natAbs : Rat), 0, (f.unitsPerEm : Rat), true⟩ else hhea f
  | none => hhea f

/-- `FontMetrics::baseline`, lines 71-76. -/
def baseline (m : Metrics) (size : Rat) : Rat := m.ascender * (size / m.unitsPerEm)

/-- A glyph as `rustybuzz` gives it. -/
structure Raw where
  glyph : Nat
  cluster : Nat
  xOffset : Int
  yOffset : Int
  xAdvance : Int
  yAdvance : Int
deriving DecidableEq

/-- `ShapedGlyph`, mod.rs lines 20-37. -/
structure Glyph where
  glyph : Nat
  x : Rat
  y : Rat
  xOffset : Rat
  yOffset : Rat
  xAdvance : Rat
  yAdvance : Rat
  cluster : Nat
deriving DecidableEq

/-- The loop of shape.rs lines 178-192; the last two components are the pen position after it. -/
def place (scale : Rat) : List Raw → Rat → Rat → List Glyph × Rat × Rat
  | [], cx, cy => ([], cx, cy)
  | r :: rs, cx, cy =>
    let g : Glyph := ⟨r.glyph, cx + r.xOffset * scale, cy + r.yOffset * scale, r.xOffset * scale, r.yOffset * scale, r.xAdvance * scale,
      r.yAdvance * scale, r.cluster⟩
    let rest := place scale rs (cx + r.xAdvance * scale) (cy + r.yAdvance * scale)
    (g :: rest.1, rest.2)

/-- One step of the loop of lines 207-213; `none` are the infinite bounds at the start. -/
def inkStep (scale : Rat) (bbox : Nat → Option (Int × Int)) (acc : Option (Rat × Rat)) (g : Glyph) : Option (Rat × Rat) :=
  match bbox (g.glyph % 65536) with
  | none => acc
  | some (a, b) => match acc with
    | none => some (g.x + a * scale, g.x + b * scale)
    | some (lo, hi) => some (min lo (g.x + a * scale), max hi (g.x + b * scale))

/-- lines 206-218. -/
def ink (scale : Rat) (bbox : Nat → Option (Int × Int)) (gs : List Glyph) (width : Rat) : Rat × Rat :=
  match gs.foldl (inkStep scale bbox) none with
  | none => (0, width)
  | some (lo, hi) => if hi < lo then (0, width) else (lo, hi)

/-- `ShapedText`, mod.rs lines 41-62. -/
structure Shaped where
  glyphs : List Glyph
  width : Rat
  height : Rat
  baseline : Rat
  size : Rat
  ascent : Rat
  descent : Rat
  inkMin : Rat
  inkMax : Rat
deriving DecidableEq

/-- `shape_text_with_style`, shape.rs lines 156-230, from the face and what `rustybuzz` gives for the text. -/
def shape (f : Face) (raws : List Raw) (size : Rat) : Shaped :=
  let m := metrics f
  let scale := size / m.unitsPerEm
  let p := place scale raws 0 0
  let i := ink scale f.bbox p.1 p.2.1
  ⟨p.1, p.2.1, m.ascender * scale - m.descender * scale, baseline m size, size, m.ascender * scale, m.descender * scale, i.1, i.2⟩

/-- `ShapedText::total_advance`, mod.rs lines 66-77. -/
def totalAdvance (s : Shaped) : Rat := s.glyphs.foldl (fun t g => t + g.xAdvance) 0

/-! ## The cache of shaped texts -/

/-- What a text is shaped by, besides the fonts: text, family, size (its bits), bold, italic; shape.rs lines 45-56. -/
abbrev Key := Str × Str × Rat × Bool × Bool

/-- `shape_text_cached`, lines 33-77, with the thread's cache before and after; `run` is `shape_text_with_style` with the database of the
call. -/
def cached {S : Type} (run : Key → Outcome S) (k : Key) (cache : Map Key S) : Outcome S × Map Key S :=
  match Map.get cache k with
  | some s => (.ok s, cache)
  | none => match run k with
    | .ok s => (.ok s, Map.insert (if 8192 ≤ cache.length then [] else cache) k s)
    | .err => (.err, cache)
    | .panic => (.panic, cache)

/-- Calls on one thread, each with its own fonts. -/
def cachedAll {S : Type} : List ((Key → Outcome S) × Key) → Map Key S → List (Outcome S)
  | [], _ => []
  | c :: cs, cache => (cached c.1 c.2 cache).1 :: cachedAll cs (cached c.1 c.2 cache).2

/-! ## Outlines -/

/-- `f as u32`: towards zero, saturating. -/
def toU32 (r : Rat) : Nat := if r ≤ 0 then 0 else min r.floor.toNat (2 ^ 32 - 1)

/-- A path: its segments. -/
abbrev Path := List (List (Rat × Rat))

/-- `OutlineBuilder`, glyph_renderer.rs lines 135-167. -/
def scaled (s : Rat) (p : Path) : Path := p.map (fun seg => seg.map (fun q => (q.1 * s, -q.2 * s)))

/-- `Path::transform` with `Transform::from_translate`. -/
def moved (dx dy : Rat) (p : Path) : Path := p.map (fun seg => seg.map (fun q => (q.1 + dx, q.2 + dy)))

/-- `PathBuilder::finish`: nothing for an empty path or a single move. -/
def finish (p : Path) : Option Path := if p.length ≤ 1 then none else some p

/-- lines 122-174: the outline of a glyph at a size, at the origin. -/
def build (f : Face) (glyph : Nat) (size : Rat) : Option Path :=
  match f.bbox (glyph % 65536) with
  | none => none
  | some _ => finish (scaled (size / f.unitsPerEm) (f.outline (glyph % 65536)))

/-- `GlyphKey` without the font: glyph and size in 16.16 fixed point, lines 24-28, 96-101. -/
def sizeKey (size : Rat) : Nat := toU32 (size * 65536)

/-- `GlyphRenderer`: the cached outlines and the cached fonts, lines 16-21.  Data and face index of a font are one value here (they are
stored together, lines 82-83). -/
structure Renderer (Id File : Type) where
  paths : Map (Id × Nat × Nat) Path
  fonts : Map Id File

variable {Id File : Type} [DecidableEq Id]

/-- One step of the loop, lines 95-190; `last` says whether it is the last glyph. -/
def step (f : Face) (id : Id) (size spacing : Rat) (g : Glyph) (last : Bool) (acc : Rat) (paths : Map (Id × Nat × Nat) Path) :
    List Path × Rat × Map (Id × Nat × Nat) Path :=
  let acc' := if last then acc else acc + spacing
  match Map.get paths (id, g.glyph, sizeKey size) with
  | some p => ([moved (g.x + acc) g.y p], acc', paths)
  | none => match build f g.glyph size with
    | some p => ([moved (g.x + acc) g.y p], acc', Map.insert paths (id, g.glyph, sizeKey size) p)
    | none => ([], acc', paths)

/-- The loop of lines 95-190. -/
def loop (f : Face) (id : Id) (size spacing : Rat) : List Glyph → Rat → Map (Id × Nat × Nat) Path → List Path × Map (Id × Nat × Nat) Path
  | [], _, paths => ([], paths)
  | g :: gs, acc, paths =>
    let r := step f id size spacing g gs.isEmpty acc paths
    let rest := loop f id size spacing gs r.2.1 r.2.2
    (r.1 ++ rest.1, rest.2)

/-- lines 55-85: the cached font, or that of the database. -/
def fileOf (source : Id → Option File) (fonts : Map Id File) (id : Id) : Option File :=
  match Map.get fonts id with
  | some d => some d
  | none => source id

/-- `render_shaped_text`, lines 47-193; `source` reads a font of the database of the call, `parse` is `ttf_parser::Face::parse`. -/
def render (source : Id → Option File) (parse : File → Option Face) (r : Renderer Id File) (s : Shaped) (id : Id) (spacing : Rat) :
    Outcome (List Path) × Renderer Id File :=
  match fileOf source r.fonts id with
  | none => (.err, r)
  | some d =>
    let fonts := if (Map.get r.fonts id).isSome then r.fonts else Map.insert r.fonts id d
    match parse d with
    | none => (.err, ⟨r.paths, fonts⟩)
    | some f =>
      let l := loop f id s.size spacing s.glyphs 0 r.paths
      (.ok l.1, ⟨l.2, fonts⟩)

/-- A call: the database, the text, the font and the spacing. -/
abbrev Call (Id File : Type) := (Id → Option File) × Shaped × Id × Rat

/-- Calls of one renderer. -/
def renderAll (parse : File → Option Face) : List (Call Id File) → Renderer Id File → List (Outcome (List Path))
  | [], _ => []
  | c :: cs, r => (render c.1 parse r c.2.1 c.2.2.1 c.2.2.2).1 :: renderAll parse cs (render c.1 parse r c.2.1 c.2.2.1 c.2.2.2).2

end Verif.Shape
