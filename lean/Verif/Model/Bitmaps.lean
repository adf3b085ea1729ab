import Verif.Model.Dirty
import Verif.Model.Outcome
/-!
# A frame as one picture and as a list of bitmaps — `crates/ass-renderer/src/backends/software/mod.rs`

What a layer paints is given by what it does to a pixmap: painting text and drawings is the subject of other models (`Model/Paint`,
`Model/Raster`).  A layer is one of the ways in which `composite_layer` can go.
-/
namespace Verif.Bitmaps
open Verif Verif.Dirty

/-- `RenderBitmap`: a shape in a colour (anything of a type `κ` here) or pixels. -/
inductive Out (κ : Type) where
  | shape (b : κ)
  | pixels (b : Bitmap)

/-- What `composite_layer` (mod.rs lines 135-152) does with a layer. -/
inductive Layer (κ : Type) where
  /-- Text painted from cached shapes: `coverage_hit` and `rasterize_coverage_miss`, cache/coverage.rs lines 49-137. -/
  | shapes (bs : List (Out κ))
  /-- Blurred text from its cached bitmap: the bitmap, or painting it, `blur_tile_hit`, cache/blur_tile.rs lines 217-247. -/
  | tile (b : Out κ) (draw : Pixmap → Pixmap)
  /-- Everything else: the boxes noted (vector.rs lines 62-67, text/prepare.rs lines 213-215), and painting it. -/
  | drawn (boxes : List Corners) (draw : Pixmap → Pixmap)
  /-- A layer that fails before anything is painted: a picture of the wrong size (vector.rs lines 20-32), text without a font
  (text/prepare.rs lines 49-56 and 165-177). -/
  | fails

/-- The backend with the two thread-local variables `EMIT_SINK` and `DIRTY_BBOX` (cache/mod.rs lines 97 and 103). -/
structure State (κ : Type) where
  pixmap : Pixmap
  scratch : Pixmap
  sink : Option (List (Out κ))
  box : Option Corners

/-- An empty pixmap: `Pixmap::new` and `fill(TRANSPARENT)`. -/
def blank (w h : Int) : Pixmap := ⟨w, h, fun _ _ => ⟨0, 0⟩⟩

/-- `composite_layer`, mod.rs lines 135-152, with `composite_cached` (blur_tile.rs lines 102-125); `comp` is `composite_bitmap`. -/
def compositeLayer {κ : Type} (comp : Out κ → Pixmap → Pixmap) (s : State κ) : Layer κ → Outcome Unit × State κ
  | .shapes bs =>
    match s.sink with
    | some l => (.ok (), { s with sink := some (l ++ bs) })
    | none => (.ok (), { s with pixmap := bs.foldl (fun p b => comp b p) s.pixmap })
  | .tile b draw =>
    match s.sink with
    | some l => (.ok (), { s with sink := some (l ++ [b]) })
    | none => (.ok (), { s with pixmap := draw s.pixmap })
  | .drawn boxes draw => (.ok (), { s with pixmap := draw s.pixmap, box := boxes.foldl note s.box })
  | .fails => (.err, s)

/-- `resize` if needed, mod.rs lines 66-73, 89-91 and 178-180 (for sizes for which a pixmap can be made). -/
def resize {κ : Type} (s : State κ) (w h : Int) : State κ :=
  if s.pixmap.w ≠ w ∨ s.pixmap.h ≠ h then { s with pixmap := blank w h, scratch := blank w h } else s

/-- The layers one after the other up to the first that fails, mod.rs lines 184-186. -/
def compositeAll {κ : Type} (comp : Out κ → Pixmap → Pixmap) (s : State κ) : List (Layer κ) → Outcome Unit × State κ
  | [] => (.ok (), s)
  | l :: ls =>
    match compositeLayer comp s l with
    | (.ok _, s) => compositeAll comp s ls
    | (o, s) => (o, s)

/-- `composite_layers`, mod.rs lines 169-189. -/
def compositeLayers {κ : Type} (comp : Out κ → Pixmap → Pixmap) (s : State κ) (w h : Int) (ls : List (Layer κ)) :
    Outcome Pixmap × State κ :=
  let s := resize s w h
  match compositeAll comp { s with pixmap := blank s.pixmap.w s.pixmap.h } ls with
  | (.ok _, s) => (.ok s.pixmap, s)
  | (.err, s) => (.err, s)
  | (.panic, s) => (.panic, s)

/-- The two pixmaps exchanged, mod.rs lines 102 and 104. -/
def swap {κ : Type} (s : State κ) : State κ := { s with pixmap := s.scratch, scratch := s.pixmap }

/-- What is taken from the scratch pixmap, mod.rs lines 110-126. -/
def takeScratch {κ : Type} (s : State κ) : List (Out κ) × State κ :=
  match crop s.scratch s.box with
  | none => ([], s)
  | some b => ([.pixels b], { s with scratch := clearRegion s.scratch b.x b.y b.w b.h })

/-- One layer of the list, mod.rs lines 100-129. -/
def emitLayer {κ : Type} (comp : Out κ → Pixmap → Pixmap) (s : State κ) (l : Layer κ) : Outcome (List (Out κ)) × State κ :=
  match compositeLayer comp (swap { s with sink := some [], box := none }) l with
  | (.ok _, s) =>
    let s := swap s
    let coverage := s.sink.getD []
    let s := { s with sink := none }
    if coverage.isEmpty then (.ok (takeScratch s).1, (takeScratch s).2) else (.ok coverage, s)
  | (.err, s) => (.err, swap s)
  | (.panic, s) => (.panic, swap s)

/-- The layers of the list, mod.rs lines 98-130. -/
def emitAll {κ : Type} (comp : Out κ → Pixmap → Pixmap) (s : State κ) : List (Layer κ) → Outcome (List (Out κ)) × State κ
  | [] => (.ok [], s)
  | l :: ls =>
    match emitLayer comp s l with
    | (.ok out, s) =>
      match emitAll comp s ls with
      | (.ok rest, s) => (.ok (out ++ rest), s)
      | (o, s) => (o, s)
    | (o, s) => (o, s)

/-- `render_to_bitmaps`, mod.rs lines 84-133. -/
def renderToBitmaps {κ : Type} (comp : Out κ → Pixmap → Pixmap) (s : State κ) (w h : Int) (ls : List (Layer κ)) :
    Outcome (List (Out κ)) × State κ :=
  let s := resize s w h
  match emitAll comp { s with scratch := blank s.scratch.w s.scratch.h } ls with
  | (.ok out, s) => (.ok out, { s with sink := none })
  | (o, s) => (o, s)

/-- The box noted for a drawing, vector.rs lines 60-67: bounds of its path, width of its border and blur. -/
def drawingBox (left top right bottom width blur : Rat) : Corners :=
  let margin := 2 + width + blur * 3
  ⟨(left - margin).floor, (top - margin).floor, (right + margin).ceil, (bottom + margin).ceil⟩

end Verif.Bitmaps
