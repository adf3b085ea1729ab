import Verif.Model.Outcome
/-!
# Dirty regions, cropping and clearing

`crates/ass-renderer/src/utils/regions.rs`, `crates/ass-renderer/src/renderer/event_selector.rs` lines 215-263,
`crates/ass-renderer/src/backends/software/dirty.rs` lines 58-148.  `u32` sums that do not fit are the
outcome `panic` (debug build; a release build wraps).
-/
namespace Verif.Dirty
open Verif

/-- 2^32. -/
def lim : Nat := 4294967296

/-- `DirtyRegion`, regions.rs lines 4-14 and event_selector.rs lines 39-48. -/
structure Reg where
  x : Nat
  y : Nat
  w : Nat
  h : Nat
deriving DecidableEq, Repr

/-- `full_screen`, regions.rs lines 28-35. -/
def fullScreen : Reg := ⟨0, 0, lim - 1, lim - 1⟩

/-- `merge`, regions.rs lines 49-61. -/
def merge (a b : Reg) : Outcome Reg :=
  if a.x + a.w ≥ lim ∨ b.x + b.w ≥ lim ∨ a.y + a.h ≥ lim ∨ b.y + b.h ≥ lim then .panic
  else
    let x1 := min a.x b.x
    let y1 := min a.y b.y
    .ok ⟨x1, y1, max (a.x + a.w) (b.x + b.w) - x1, max (a.y + a.h) (b.y + b.h) - y1⟩

/-- `contains_point`, regions.rs lines 64-66 (for coordinates that fit). -/
def containsPoint (r : Reg) (x y : Nat) : Bool :=
  decide (x ≥ r.x) && decide (x < r.x + r.w) && decide (y ≥ r.y) && decide (y < r.y + r.h)

/-- `saturating_add`. -/
def satAdd (a b : Nat) : Nat := min (a + b) (lim - 1)

/-- `intersects`, regions.rs lines 38-46. -/
def intersects (r : Reg) (bx1 by1 bx2 by2 : Nat) : Bool :=
  !(decide (satAdd r.x r.w < bx1) || decide (r.x > bx2) || decide (satAdd r.y r.h < by1) || decide (r.y > by2))

/-- `regions_overlap`, event_selector.rs lines 241-246. -/
def regionsOverlap (r n : Reg) : Bool :=
  !(decide (n.x ≥ r.x + r.w) || decide (n.x + n.w ≤ r.x) || decide (n.y ≥ r.y + r.h) || decide (n.y + n.h ≤ r.y))

/-- `add_dirty_region`, event_selector.rs lines 215-238. -/
def addRegion : List Reg → Reg → Outcome (List Reg)
  | [], n => .ok [n]
  | r :: l, n =>
    if r.x + r.w ≥ lim ∨ n.x + n.w ≥ lim ∨ r.y + r.h ≥ lim ∨ n.y + n.h ≥ lim then .panic
    else if regionsOverlap r n then
      match merge r n with
      | .ok m => .ok (m :: l)
      | _ => .panic
    else
      match addRegion l n with
      | .ok l' => .ok (r :: l')
      | _ => .panic

/-! ## The scratch pixmap -/

/-- Premultiplied pixel: colour bytes and alpha. -/
structure Px where
  rgb : Nat
  a : Nat
deriving DecidableEq, Repr

/-- A pixmap: pixels by coordinates (the flat byte buffer is not modelled here). -/
structure Pixmap where
  w : Int
  h : Int
  px : Int → Int → Px

/-- Rectangle given by its corners, right and lower edge excluded. -/
structure Corners where
  x0 : Int
  y0 : Int
  x1 : Int
  y1 : Int
deriving DecidableEq, Repr

/-- `note_dirty_bbox`, dirty.rs lines 58-71. -/
def note (slot : Option Corners) (b : Corners) : Option Corners :=
  match slot with
  | none => some b
  | some c => some ⟨min c.x0 b.x0, min c.y0 b.y0, max c.x1 b.x1, max c.y1 b.y1⟩

/-- `clear_region`, dirty.rs lines 80-97. -/
def clearRegion (p : Pixmap) (rx ry rw rh : Int) : Pixmap :=
  let x0 := max rx 0
  let y0 := max ry 0
  let x1 := min (rx + rw) p.w
  let y1 := min (ry + rh) p.h
  if x1 ≤ x0 ∨ y1 ≤ y0 then p
  else { p with px := fun x y => if x0 ≤ x ∧ x < x1 ∧ y0 ≤ y ∧ y < y1 then ⟨0, 0⟩ else p.px x y }

/-- The half-open range `a..b`. -/
def irange (a b : Int) : List Int := (List.range (b - a).toNat).map (fun i : Nat => a + (i : Int))

/-- The scanned rectangle, dirty.rs lines 110-113. -/
def scanRect (p : Pixmap) (hint : Option Corners) : Corners :=
  match hint with
  | some c => ⟨max c.x0 0, max c.y0 0, min (c.x1 + 1) p.w, min (c.y1 + 1) p.h⟩
  | none => ⟨0, 0, p.w, p.h⟩

/-- One step of the scan, lines 121-126. -/
def scanStep (p : Pixmap) (acc : Corners) (q : Int × Int) : Corners :=
  if (p.px q.1 q.2).a ≠ 0 then ⟨min acc.x0 q.1, min acc.y0 q.2, max acc.x1 q.1, max acc.y1 q.2⟩ else acc

/-- The scanned coordinates in order, lines 118-120. -/
def scanList (s : Corners) : List (Int × Int) :=
  (irange s.y0 s.y1).flatMap (fun y => (irange s.x0 s.x1).map (fun x => (x, y)))

/-- The cropped bitmap: position, size and pixels. -/
structure Bitmap where
  x : Int
  y : Int
  w : Int
  h : Int
  px : Int → Int → Px

/-- `crop_pixmap`, dirty.rs lines 100-148. -/
def crop (p : Pixmap) (hint : Option Corners) : Option Bitmap :=
  let s := scanRect p hint
  if s.x1 ≤ s.x0 ∨ s.y1 ≤ s.y0 then none
  else
    let m := (scanList s).foldl (scanStep p) ⟨s.x1, s.y1, -1, -1⟩
    if m.x1 < m.x0 then none
    else some ⟨m.x0, m.y0, m.x1 - m.x0 + 1, m.y1 - m.y0 + 1, fun tx ty => p.px (m.x0 + tx) (m.y0 + ty)⟩

end Verif.Dirty
