import Verif.Model.Shape
/-!
# Specification: where glyphs stand

Of the model only the data types are used.
-/
namespace Verif.Spec.Shape
open Verif (Outcome)
open Verif.Shape (Face Raw Glyph Path Shaped)

/-- The sum of some advances. -/
def total (f : Raw → Int) (rs : List Raw) : Int := (rs.map f).sum

/-- The glyph `g` stands where the advances of the glyphs before it end, moved by its own offset; all at this many pixels per font unit. -/
structure Placed (scale : Rat) (before : List Raw) (r : Raw) (g : Glyph) : Prop where
  same : g.glyph = r.glyph ∧ g.cluster = r.cluster
  x : g.x = ((total (·.xAdvance) before + r.xOffset : Int) : Rat) * scale
  y : g.y = ((total (·.yAdvance) before + r.yOffset : Int) : Rat) * scale
  advance : g.xAdvance = (r.xAdvance : Rat) * scale ∧ g.yAdvance = (r.yAdvance : Rat) * scale

/-- The horizontal extent of a glyph of the text. -/
def Extent (f : Face) (scale : Rat) (g : Glyph) (lo hi : Rat) : Prop :=
  ∃ a b : Int, f.bbox (g.glyph % 65536) = some (a, b) ∧ lo = g.x + a * scale ∧ hi = g.x + b * scale

/-- The outline of a glyph: its segments scaled, upside down (font coordinates go up, those of the screen down), and moved. -/
def drawn (scale dx dy : Rat) (p : Path) : Path := p.map (fun seg => seg.map (fun q => (q.1 * scale + dx, -q.2 * scale + dy)))

/-- The paths of a text: for each glyph with an outline the outline at its place, the `i`-th glyph moved by `i` times the spacing. -/
def Outlines (f : Face) (size spacing : Rat) : Nat → List Glyph → List Path → Prop
  | _, [], ps => ps = []
  | i, g :: gs, ps =>
    if (f.bbox (g.glyph % 65536)).isSome ∧ 2 ≤ (f.outline (g.glyph % 65536)).length then
      ∃ rest, ps = drawn (size / f.unitsPerEm) (g.x + (i : Rat) * spacing) g.y (f.outline (g.glyph % 65536)) :: rest ∧
        Outlines f size spacing (i + 1) gs rest
    else Outlines f size spacing (i + 1) gs ps

/-- A size that the fixed-point key holds exactly: a whole number of 65536ths of a pixel, below 65536 pixels. -/
def Exact (size : Rat) : Prop := ∃ n : Nat, size = (n : Rat) / 65536 ∧ n < 2 ^ 32

variable {Id File : Type}

/-- What a call should give. -/
def Given (parse : File → Option Face) (source : Id → Option File) (s : Shaped) (id : Id) (spacing : Rat) (o : Outcome (List Path)) : Prop :=
  match (source id).bind parse with
  | none => o = .err
  | some f => ∃ ps, o = .ok ps ∧ Outlines f s.size spacing 0 s.glyphs ps

/-- Results and calls belong together. -/
def AllGiven (parse : File → Option Face) (source : Id → Option File) : List (Shaped × Id × Rat) → List (Outcome (List Path)) → Prop
  | [], os => os = []
  | c :: cs, os => ∃ o rest, os = o :: rest ∧ Given parse source c.1 c.2.1 c.2.2 o ∧ AllGiven parse source cs rest

end Verif.Spec.Shape
