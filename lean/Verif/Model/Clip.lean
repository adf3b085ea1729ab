import Verif.Model.Color
/-!
# Clips and the colours of drawings — `crates/ass-renderer/src/backends/software/vector.rs`,
`backends/software/text/prepare.rs`, `pipeline/build/drawing.rs`, `pipeline/build/text/effects.rs`

Coordinates are exact rationals.  Filling a path is tiny-skia's: without anti-aliasing a pixel is filled when its centre is
inside by the fill rule (points on a left or upper edge are inside, on a right or lower one outside), with anti-aliasing it
is covered by the share of its area that is inside.  That tiny-skia rounds coordinates to fractions of a pixel, and that a
mask of a frame without pixels cannot be made, are left out.
-/
namespace Verif.Clip
open Verif

/-- A point. -/
abbrev Pt := Rat × Rat

/-- How an edge counts at a point: `1` when it passes the point's height upward at or left of it, `-1` downward. -/
def crossing (c a b : Pt) : Int :=
  if a.2 ≤ c.2 ∧ c.2 < b.2 ∧ a.1 + (c.2 - a.2) * (b.1 - a.1) / (b.2 - a.2) ≤ c.1 then 1
  else if b.2 ≤ c.2 ∧ c.2 < a.2 ∧ a.1 + (c.2 - a.2) * (b.1 - a.1) / (b.2 - a.2) ≤ c.1 then -1
  else 0

/-- The winding number of a closed polygon around a point; `first` is where it is closed to. -/
def winding (c first : Pt) : List Pt → Int
  | [] => 0
  | [a] => crossing c a first
  | a :: b :: ps => crossing c a b + winding c first (b :: ps)

/-- The fill rules of tiny-skia. -/
inductive Rule where
  | winding
  | evenOdd

/-- The winding number of one closed polygon. -/
def around (c : Pt) : List Pt → Int
  | [] => 0
  | a :: ps => winding c a (a :: ps)

/-- Whether a point is inside a path of closed polygons. -/
def inside (r : Rule) (path : List (List Pt)) (c : Pt) : Bool :=
  let n : Int := (path.map (around c)).sum
  match r with
  | .winding => n ≠ 0
  | .evenOdd => n % 2 ≠ 0

/-- A clip in pixels: corners and whether it is inverse (`\iclip`). -/
structure Clip where
  x1 : Rat
  y1 : Rat
  x2 : Rat
  y2 : Rat
  inverse : Bool

/-- The path and rule of the mask, software/vector.rs lines 165-181 and text/prepare.rs lines 232-252, in a frame of `w`
by `h` pixels. -/
def maskPath (w h : Nat) (k : Clip) : List (List Pt) × Rule :=
  let rect : List Pt := [(k.x1, k.y1), (k.x2, k.y1), (k.x2, k.y2), (k.x1, k.y2)]
  if k.inverse then ([rect, [(0, 0), ((w : Rat), 0), ((w : Rat), (h : Rat)), (0, (h : Rat))]], .evenOdd)
  else ([rect], .winding)

/-- A pixel: column and row. -/
abbrev Px := Nat × Nat

/-- The centre of a pixel. -/
def centre (p : Px) : Pt := ((p.1 : Rat) + 1 / 2, (p.2 : Rat) + 1 / 2)

/-- `vector_clip_mask`, software/vector.rs lines 157-191, filled without anti-aliasing (line 189); no clip: no mask. -/
def vectorMask (w h : Nat) (k : Option Clip) (p : Px) : Bool :=
  match k with
  | none => true
  | some k => inside (maskPath w h k).2 (maskPath w h k).1 (centre p)

/-- A frame: what each pixel holds. -/
abbrev Frame (α : Type) := Px → α

/-- Drawing through a mask: `paint p` is what the fill and stroke of the shape make of the pixel `p`, software/vector.rs
lines 79-107 and 139-149. -/
def drawMasked {α : Type} (mask : Px → Bool) (paint : Px → α → α) (f : Frame α) : Frame α :=
  fun p => if mask p then paint p (f p) else f p

/-- The overlap of the unit cell at `i` with the interval between `a` and `b`. -/
def overlap (i : Nat) (a b : Rat) : Rat :=
  max 0 (min ((i : Rat) + 1) (max a b) - max (i : Rat) (min a b))

/-- The mask for text, text/prepare.rs lines 218-263, filled with anti-aliasing (line 255): the share of the pixel inside
the rectangle, or outside of it. -/
def textMask (k : Clip) (p : Px) : Rat :=
  if k.inverse then 1 - overlap p.1 k.x1 k.x2 * overlap p.2 k.y1 k.y2
  else overlap p.1 k.x1 k.x2 * overlap p.2 k.y1 k.y2

/-- Painting with an opaque colour through such a mask: how much of the pixel shows the colour (source over). -/
def blend (m shown : Rat) : Rat := m + (1 - m) * shown

/-! ## The colours and the border of a drawing -/

/-- What the tags of a drawing and its style give, build/drawing.rs lines 46-62 and 170-191; the colours of the style are
parsed (`parse_ass_color`). -/
structure Given where
  primary : Option Color.Rgba
  outline : Option Color.Rgba
  alpha : Option Nat
  alpha1 : Option Nat
  alpha3 : Option Nat
  border : Option Rat
  borderX : Option Rat
  borderY : Option Rat
  style : Option (Color.Rgba × Color.Rgba × Rat)

/-- The fill colour, build/drawing.rs lines 46-62. -/
def fillColor (g : Given) : Color.Rgba :=
  let c : Color.Rgba := match g.primary with
    | some c => { c with a := match g.style with | some (p, _) => p.a | none => 255 }
    | none => match g.style with
      | some (p, _) => p
      | none => ⟨255, 255, 255, 255⟩
  match g.alpha1.or g.alpha with
  | some a => { c with a := a }
  | none => c

/-- The width of the stroke, build/drawing.rs lines 170-181; the border of the style and `\ybord` are not read. -/
def borderWidth (g : Given) (scaled : Bool) (sy : Rat) : Rat :=
  match g.borderX.or g.border with
  | some w => if scaled then w * sy else w
  | none => 0

/-- The stroke, build/drawing.rs lines 182-196: colour and width. -/
def stroke (g : Given) (scaled : Bool) (sy : Rat) : Option (Color.Rgba × Rat) :=
  if 0 < borderWidth g scaled sy then
    let oc : Color.Rgba := match g.outline with
      | some c => c
      | none => match g.style with
        | some (_, o, _) => o
        | none => ⟨0, 0, 0, 255⟩
    let oc := { oc with a := match g.style with | some (_, o, _) => o.a | none => 255 }
    some (match g.alpha3.or g.alpha with | some a => { oc with a := a } | none => oc, borderWidth g scaled sy)
  else none

/-- How far a stroke of this width reaches beyond the path: tiny-skia's strokes lie half on either side of it. -/
def reach (width : Rat) : Rat := width / 2

/-- The clip in pixels, build/drawing.rs lines 151-159 and build/text/effects.rs lines 189-197. -/
def scaleClip (sx sy : Rat) (k : Clip) : Clip := ⟨k.x1 * sx, k.y1 * sy, k.x2 * sx, k.y2 * sy, k.inverse⟩

end Verif.Clip
