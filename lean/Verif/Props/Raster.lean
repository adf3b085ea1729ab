import Verif.Lemmas.RasterTile
/-!
# C129: the coverage of an outline's edges.  C130: the tile of an outline
-/
namespace Verif.Props.Raster
open Verif Verif.Raster
open Verif.Spec.Raster

/-- **C129.**  The area right of an edge in a pixel, as specified, is one number, and every edge has one. -/
theorem C129_spec {c r : Rat} (e : Edge) : (∃ v, EdgeArea c r e v) ∧ ∀ v w, EdgeArea c r e v → EdgeArea c r e w → v = w := by
  refine ⟨?_, fun v w => area_unique⟩
  rcases Rat.le_total (a := e.at (within r e.a.2)) (b := e.at (within r e.b.2)) with h | h
  · exact area_exists _ _ _ _ h
  · obtain ⟨v, hv⟩ := area_exists c _ _ (within r e.b.2 - within r e.a.2) h
    exact ⟨v, area_swap hv⟩

/-- **C129.**  The byte of every pixel of a bitmap of closed contours is the area of the contours in that pixel.
Missing: edges that leave the bitmap at its sides, contours that overlap (`C129_overlap_violated`: the sum of the areas is given,
not the area of the union), and the rounding of `f32`. -/
theorem C129_area_partial {w h : Nat} {es : List Edge} (hi : ∀ e ∈ es, Inside w e) (hc : Closed es) :
    ∃ r, lines (es.map fun e => (e.a, e.b)) (new w h) = .ok r ∧ (finish r).length = w * h ∧
      ∀ x y : Nat, x < w → y < h → ∃ a n, Areas x y es a ∧ (finish r)[y * w + x]? = some n ∧ Byte a n := by
  obtain ⟨hs, hz⟩ := new_shape w h
  obtain ⟨r, δ, h1, h2, h3⟩ := lines_grown (es := es) hs hi
  refine ⟨r, h1, ?_, ?_⟩
  · rw [finish_length h2.1, h2.2.1, h2.2.2.1]
    rfl
  · intro x y hx hy
    obtain ⟨g1, g2, g3, g4⟩ := h2
    have total : ∀ c, c < w + 2 → pre (cell w r.acc y) (c + 1) = δ y c := by
      intro c hc
      have := g4 y c hy hc
      rw [show (new w h).width = w from rfl, pre_zero (fun k _ => hz y k), Rat.zero_add] at this
      exact this
    have end0 : pre (cell w r.acc y) (w + 2) = 0 := by
      rw [total (w + 1) (by omega)]
      refine closed_height (w := w) ?_ hc hi (h3 y (w + 1) hy)
      rw [Rat.natCast_add]
      show (w : Rat) ≤ w + 1
      grind
    have hw : r.width = w := g2
    have hh : r.height = h := g3
    have := finish_get g1 (y := y) (c := x) (by omega) (by omega) (by rw [hw]; exact end0)
    rw [hw, total x (by omega)] at this
    exact ⟨δ y x, _, h3 y x hy, this, convert_byte _⟩

/-- **C129.**  Pixels that no edge meets are full where the winding number is not zero and empty where it is.
Missing: pixels that an edge meets where contours overlap (`C129_overlap_violated`), and the rounding of `f32`. -/
theorem C129_winding_partial {w h : Nat} {es : List Edge} (hi : ∀ e ∈ es, Inside w e) (hc : Closed es) :
    ∃ r, lines (es.map fun e => (e.a, e.b)) (new w h) = .ok r ∧ ∀ x y : Nat, x < w → y < h → (∀ e ∈ es, Misses x y e) →
      (finish r)[y * w + x]? = some (if winding (x + 1 / 2) (y + 1 / 2) es = 0 then 0 else 255) := by
  obtain ⟨r, h1, _, h3⟩ := C129_area_partial (h := h) hi hc
  refine ⟨r, h1, ?_⟩
  intro x y hx hy hm
  obtain ⟨a, n, ha, hn, b1, b2, b3⟩ := h3 x y hx hy
  have := closed_turn hc hm ha
  subst this
  rw [hn]
  generalize winding ((x : Rat) + 1 / 2) ((y : Rat) + 1 / 2) es = k at *
  refine congrArg some ?_
  by_cases hk : k = 0
  · rw [if_pos hk]
    subst hk
    have e : min (max ((0 : Int) : Rat) (-((0 : Int) : Rat))) 1 * 255 = 0 := by decide +kernel
    rw [e] at b2
    have : (n : Rat) < ((1 : Nat) : Rat) := by
      show (n : Rat) < 1
      grind
    have := Rat.natCast_lt_natCast.1 this
    omega
  · rw [if_neg hk]
    have e : min (max (k : Rat) (-(k : Rat))) 1 = 1 := by
      rcases Int.lt_or_lt_of_ne hk with h | h
      · have : (k : Rat) ≤ ((-1 : Int) : Rat) := Rat.intCast_le_intCast.2 (by omega)
        have e1 : ((-1 : Int) : Rat) = -1 := rfl
        grind
      · have : ((1 : Int) : Rat) ≤ (k : Rat) := Rat.intCast_le_intCast.2 (by omega)
        have e1 : ((1 : Int) : Rat) = 1 := rfl
        grind
    rw [e] at b3
    have : ((254 : Nat) : Rat) < n := by
      show (254 : Rat) < n
      grind
    have := Rat.natCast_lt_natCast.1 this
    omega

/-- **C129.**  No edges, wherever they are, make the rasterizer panic, and the bitmap has its size. -/
theorem C129_safe (w h : Nat) (es : List (Point × Point)) : ∃ r, lines es (new w h) = .ok r ∧ (finish r).length = w * h := by
  obtain ⟨hs, _⟩ := new_shape w h
  obtain ⟨r, δ, h1, h2⟩ := lines_safe (es := es) hs
  refine ⟨r, h1, ?_⟩
  rw [finish_length h2.1, h2.2.1, h2.2.2.1]
  rfl

/-! ## Concrete cases -/

/-- The edges of a rectangle, clockwise from its left upper corner. -/
def box (l t r b : Rat) : List Edge := [⟨(l, t), (r, t)⟩, ⟨(r, t), (r, b)⟩, ⟨(r, b), (l, b)⟩, ⟨(l, b), (l, t)⟩]

theorem box_closed (l t r b : Rat) : Closed (box l t r b) := by
  have : Chain (l, t) (l, t) (box l t r b) := .cons (.cons (.cons (.cons .nil)))
  have := Closed.append this .nil
  rwa [List.append_nil] at this

theorem box_inside {l t r b w : Rat} (h0 : 0 ≤ l) (h1 : l ≤ w) (h2 : 0 ≤ r) (h3 : r ≤ w) : ∀ e ∈ box l t r b, Inside w e := by
  intro e he
  simp only [box, List.mem_cons, List.not_mem_nil, or_false] at he
  rcases he with rfl | rfl | rfl | rfl <;> exact ⟨by assumption, by assumption, by assumption, by assumption⟩

/-- The bytes of edges. -/
def picture (w h : Nat) (es : List Edge) : Option (List Nat) :=
  match lines (es.map fun e => (e.a, e.b)) (new w h) with
  | .ok r => some (finish r)
  | _ => none

theorem picture_some {w h : Nat} {es : List Edge} {out : List Nat} (hp : picture w h es = some out) :
    ∃ r, lines (es.map fun e => (e.a, e.b)) (new w h) = .ok r ∧ finish r = out := by
  unfold picture at hp
  split at hp
  · rename_i r hr
    cases hp
    exact ⟨r, hr, rfl⟩
  · exact nomatch hp

/-- A rectangle whose sides are within pixels: a quarter of the corner pixel, half of the pixels at the sides. -/
example : picture 4 4 (box (1 / 2) (1 / 2) (5 / 2) 3) = some [64, 128, 64, 0, 128, 255, 128, 0, 128, 255, 128, 0, 0, 0, 0, 0] ∧
    (∀ e ∈ box (1 / 2) (1 / 2) (5 / 2) 3, Inside (4 : Nat) e) ∧ Closed (box (1 / 2) (1 / 2) (5 / 2) 3) :=
  ⟨by decide +kernel, box_inside (by decide +kernel) (by decide +kernel) (by decide +kernel) (by decide +kernel), box_closed _ _ _ _⟩

/-- A triangle with a flat side over several columns. -/
example : picture 4 2 [⟨(0, 0), (4, 1)⟩, ⟨(4, 1), (0, 1)⟩, ⟨(0, 1), (0, 0)⟩] = some [223, 159, 96, 32, 0, 0, 0, 0] := by decide +kernel

/-- The pixel in the middle of the rectangle is missed by all edges, and its winding number is not zero. -/
example : (∀ e ∈ box (1 / 2) (1 / 2) (5 / 2) 3, Misses (1 : Nat) (1 : Nat) e) ∧ winding ((1 : Nat) + 1 / 2) ((1 : Nat) + 1 / 2) (box (1 / 2) (1 / 2) (5 / 2) 3) ≠ 0 := by
  refine ⟨?_, by decide +kernel⟩
  have c1 : ((1 : Nat) : Rat) = 1 := rfl
  intro e he s h0 h1
  simp only [box, List.mem_cons, List.not_mem_nil, or_false] at he
  rw [c1]
  rcases he with rfl | rfl | rfl | rfl <;> (unfold Edge.part; dsimp only; grind)

/-- **C129.**  Partly covered pixels do not follow the non-zero winding rule, although raster/mod.rs says so: a contour drawn twice has the same points inside, but its edges get darker; so do outlines of glyphs that overlap. -/
theorem C129_overlap_violated : ∃ (es : List Edge) (once twice : List Nat), Closed es ∧ Closed (es ++ es) ∧ (∀ e ∈ es, Inside (1 : Nat) e) ∧
    (∀ x y, winding x y (es ++ es) = 0 ↔ winding x y es = 0) ∧
    (∃ r, lines (es.map fun e => (e.a, e.b)) (new 1 1) = .ok r ∧ finish r = once) ∧
    (∃ r, lines ((es ++ es).map fun e => (e.a, e.b)) (new 1 1) = .ok r ∧ finish r = twice) ∧ once ≠ twice := by
  have hc : Chain (0, 0) (0, 0) (box 0 0 (1 / 2) 1) := .cons (.cons (.cons (.cons .nil)))
  refine ⟨box 0 0 (1 / 2) 1, [128], [255], box_closed _ _ _ _, .append hc (box_closed _ _ _ _),
    box_inside (by decide +kernel) (by decide +kernel) (by decide +kernel) (by decide +kernel), ?_,
    picture_some (by decide +kernel), picture_some (by decide +kernel), by decide⟩
  intro x y
  rw [winding_append]
  omega

/-! # C130 -/

/-- The first segment, if there is one, begins a contour: `tiny_skia::Path` has no others. -/
def Begins (segs : List Seg) : Prop := ∀ s, segs.head? = some s → ∃ p, s = .moveTo p

theorem i32_ok {n : Int} (h0 : -2147483648 ≤ n) (h1 : n ≤ 2147483647) : Blend.i32 n = .ok n := by
  unfold Blend.i32
  rw [if_pos ⟨h0, h1⟩]

/-- Floor and ceiling of moderate numbers. -/
theorem moderate {x : Rat} (h0 : -1000000000 ≤ x) (h1 : x ≤ 1000000000) :
    -1000000000 ≤ x.floor ∧ x.floor ≤ 1000000000 ∧ -1000000000 ≤ x.ceil ∧ x.ceil ≤ 1000000000 := by
  have a1 := Rat.floor_le x
  have a2 := Rat.lt_floor_add_one x
  have a3 := Rat.le_ceil (x := x)
  have a4 := Rat.ceil_lt (x := x)
  have m : ((-1000000000 : Int) : Rat) = -1000000000 := rfl
  have p : ((1000000000 : Int) : Rat) = 1000000000 := rfl
  refine ⟨Rat.le_floor_iff.2 (by rw [m]; exact h0), ?_, ?_, ?_⟩
  · have : (x.floor : Rat) ≤ ((1000000000 : Int) : Rat) := by rw [p]; exact Rat.le_trans a1 h1
    exact Rat.intCast_le_intCast.1 this
  · have : ((-1000000000 : Int) : Rat) ≤ (x.ceil : Rat) := by rw [m]; exact Rat.le_trans h0 a3
    exact Rat.intCast_le_intCast.1 this
  · have : (x.ceil : Rat) < ((1000000001 : Int) : Rat) := by
      have : ((1000000001 : Int) : Rat) = 1000000001 := rfl
      grind
    have := Rat.intCast_lt_intCast.1 this
    omega

/-- **C130.**  The tile of an outline holds, at its place in the frame, the area of the outline in every pixel, and there is nothing of the outline outside the tile.
Missing: bounds near the limits of 32-bit integers (`C130_overflow_violated`) and the rounding of `f32`. -/
theorem C130_tile_partial {l t r b : Rat} {segs : List Seg} (hb : Begins segs) (hp : ∀ s ∈ segs, ∀ p ∈ s.points, l ≤ p.1 ∧ p.1 ≤ r ∧ t ≤ p.2 ∧ p.2 ≤ b)
    (hlr : l ≤ r) (htb : t ≤ b) (h0 : -1000000000 ≤ l) (h1 : r ≤ 1000000000) (h2 : -1000000000 ≤ t) (h3 : b ≤ 1000000000) :
    ∃ (w h : Nat) (bytes : List Nat) (x y : Int) (es : List Edge), rasterize l t r b segs = .ok (w, h, bytes, x, y) ∧
      ((x : Rat) + 1 ≤ l ∧ l < x + 2 ∧ r + 1 ≤ x + w ∧ x + w < r + 2) ∧ ((y : Rat) + 1 ≤ t ∧ t < y + 2 ∧ b + 1 ≤ y + h ∧ y + h < b + 2) ∧
      Outline none segs es ∧ Closed es ∧ bytes.length = w * h ∧
      (∀ i j : Nat, i < w → j < h → ∃ a n, Areas (i + x) (j + y) es a ∧ bytes[j * w + i]? = some n ∧ Byte a n) ∧
      ∀ (i j : Int) (a : Rat), ¬ (x ≤ i ∧ i < x + w ∧ y ≤ j ∧ j < y + h) → Areas i j es a → a = 0 := by
  obtain ⟨l1, l2, _, _⟩ := moderate h0 (Rat.le_trans hlr h1)
  obtain ⟨_, _, r1, r2⟩ := moderate (Rat.le_trans h0 hlr) h1
  obtain ⟨t1, t2, _, _⟩ := moderate h2 (Rat.le_trans htb h3)
  obtain ⟨_, _, b1, b2⟩ := moderate (Rat.le_trans h2 htb) h3
  have fl := Rat.floor_le l
  have fl' := Rat.lt_floor_add_one l
  have ft := Rat.floor_le t
  have ft' := Rat.lt_floor_add_one t
  have cr := Rat.le_ceil (x := r)
  have cr' := Rat.ceil_lt (x := r)
  have cb := Rat.le_ceil (x := b)
  have cb' := Rat.ceil_lt (x := b)
  rw [Rat.intCast_add] at fl' ft'
  have lr : l.floor ≤ r.ceil := by
    have : (l.floor : Rat) ≤ (r.ceil : Rat) := by grind
    exact Rat.intCast_le_intCast.1 this
  have tb : t.floor ≤ b.ceil := by
    have : (t.floor : Rat) ≤ (b.ceil : Rat) := by grind
    exact Rat.intCast_le_intCast.1 this
  have one : ((1 : Int) : Rat) = 1 := rfl
  have s1 : sat l.floor = l.floor := by unfold sat; omega
  have s2 : sat t.floor = t.floor := by unfold sat; omega
  have s3 : sat r.ceil = r.ceil := by unfold sat; omega
  have s4 : sat b.ceil = b.ceil := by unfold sat; omega
  obtain ⟨w, hw⟩ : ∃ w : Nat, (w : Int) = r.ceil + 1 - (l.floor - 1) := ⟨(r.ceil + 1 - (l.floor - 1)).toNat, by omega⟩
  obtain ⟨h, hh⟩ : ∃ h : Nat, (h : Int) = b.ceil + 1 - (t.floor - 1) := ⟨(b.ceil + 1 - (t.floor - 1)).toNat, by omega⟩
  have hwR : (w : Rat) = r.ceil + 1 - (l.floor - 1) := by
    rw [← Rat.intCast_natCast, hw, Rat.intCast_sub, Rat.intCast_add, Rat.intCast_sub]
    rfl
  have hhR : (h : Rat) = b.ceil + 1 - (t.floor - 1) := by
    rw [← Rat.intCast_natCast, hh, Rat.intCast_sub, Rat.intCast_add, Rat.intCast_sub]
    rfl
  have xR : ((l.floor - 1 : Int) : Rat) = l.floor - 1 := by rw [Rat.intCast_sub]; rfl
  have yR : ((t.floor - 1 : Int) : Rat) = t.floor - 1 := by rw [Rat.intCast_sub]; rfl
  obtain ⟨es, a1, a2, a3, a4⟩ := drawAll_spec (((l.floor - 1 : Int) : Rat), ((t.floor - 1 : Int) : Rat)) (l := l) (t := t) (r := r) (b := b) (st := none) hp trivial
    (fun _ => hb)
  have hin : ∀ e ∈ es.map (shift (((l.floor - 1 : Int) : Rat), ((t.floor - 1 : Int) : Rat))), Inside w e := by
    intro e he
    obtain ⟨f, hf, rfl⟩ := List.mem_map.1 he
    obtain ⟨⟨f1, f2, _, _⟩, f3, f4, _, _⟩ := a3 f hf
    refine ⟨?_, ?_, ?_, ?_⟩ <;> (unfold shift move; dsimp only; rw [xR]; grind)
  obtain ⟨g, g1, g2, g3⟩ := C129_area_partial (h := h) hin (closed_shift _ a4)
  refine ⟨w, h, finish g, l.floor - 1, t.floor - 1, es, ?_, ⟨?_, ?_, ?_, ?_⟩, ⟨?_, ?_, ?_, ?_⟩, a1, a4, g2, ?_, ?_⟩
  · unfold rasterize
    rw [s1, s2, s3, s4, i32_ok (by omega) (by omega), bind_ok, i32_ok (by omega) (by omega), bind_ok, i32_ok (by omega) (by omega), bind_ok,
      i32_ok (by omega) (by omega), bind_ok, i32_ok (by omega) (by omega), bind_ok, i32_ok (by omega) (by omega), bind_ok]
    have e1 : (max (r.ceil + 1 - (l.floor - 1)) 1).toNat = w := by omega
    have e2 : (max (b.ceil + 1 - (t.floor - 1)) 1).toNat = h := by omega
    rw [e1, e2]
    have := a2 (new w h)
    rw [show penOf _ none = ⟨(0, 0), (0, 0), false⟩ from rfl] at this
    dsimp only
    rw [this]
    rw [show List.map ends = List.map (fun e : Edge => (e.a, e.b)) from rfl, g1]
    rfl
  · rw [xR]; grind
  · rw [xR]; grind
  · rw [xR]; grind
  · rw [xR]; grind
  · rw [yR]; grind
  · rw [yR]; grind
  · rw [yR]; grind
  · rw [yR]; grind
  · intro i j hi hj
    obtain ⟨a, n, k1, k2, k3⟩ := g3 i j hi hj
    exact ⟨a, n, areas_shift k1, k2, k3⟩
  · intro i j a ho ha
    by_cases hr : l.floor - 1 + w ≤ i
    · have hc : r ≤ (i : Rat) := by
        have : (r.ceil : Rat) ≤ (i : Rat) := Rat.intCast_le_intCast.2 (by omega)
        grind
      exact areas_right hc a4 (fun e he => ⟨(a3 e he).1.2.1, (a3 e he).2.2.1⟩) ha
    · by_cases hl : i < l.floor - 1
      · have hc : (i : Rat) + 1 ≤ l := by
          have : ((i + 1 : Int) : Rat) ≤ (l.floor : Rat) := Rat.intCast_le_intCast.2 (by omega)
          rw [Rat.intCast_add] at this
          grind
        exact areas_left hc (fun e he => ⟨(a3 e he).1.1, (a3 e he).2.1⟩) ha
      · have hv : (j : Rat) + 1 ≤ t ∨ b ≤ (j : Rat) := by
          by_cases hj : j < t.floor - 1
          · have : ((j + 1 : Int) : Rat) ≤ (t.floor : Rat) := Rat.intCast_le_intCast.2 (by omega)
            rw [Rat.intCast_add] at this
            exact .inl (by grind)
          · have : (b.ceil : Rat) ≤ (j : Rat) := Rat.intCast_le_intCast.2 (by omega)
            exact .inr (by grind)
        exact areas_beyond hv (fun e he => ⟨(a3 e he).1.2.2.1, (a3 e he).1.2.2.2, (a3 e he).2.2.2.1, (a3 e he).2.2.2.2⟩) ha

/-- The bytes and the place of a tile. -/
def tile (l t r b : Rat) (segs : List Seg) : Option (Nat × Nat × List Nat × Int × Int) :=
  match rasterize l t r b segs with
  | .ok v => some v
  | _ => none

/-- A rectangle that was not closed, and a curve, at a place in the frame. -/
example : tile (21 / 2) (41 / 2) (25 / 2) 22 [.moveTo (21 / 2, 41 / 2), .lineTo (25 / 2, 41 / 2), .lineTo (25 / 2, 22), .lineTo (21 / 2, 22)] =
      some (5, 4, [0, 0, 0, 0, 0, 0, 64, 128, 64, 0, 0, 128, 255, 128, 0, 0, 0, 0, 0, 0], 9, 19) ∧
    Begins [.moveTo (21 / 2, 41 / 2), .lineTo (25 / 2, 41 / 2), .lineTo (25 / 2, 22), .lineTo (21 / 2, 22)] :=
  ⟨by decide +kernel, fun s h => ⟨(21 / 2, 41 / 2), by cases h; rfl⟩⟩

example : tile 0 0 4 4 [.moveTo (0, 0), .quadTo (4, 0) (4, 4), .lineTo (0, 4), .close] =
    some (6, 6, [0, 0, 0, 0, 0, 0, 0, 230, 179, 72, 0, 0, 0, 255, 255, 249, 72, 0, 0, 255, 255, 255, 179, 0, 0, 255, 255, 255, 230, 0, 0, 0, 0, 0, 0, 0], -1, -1) := by decide +kernel

/-- **C130.**  A panic happened. -/
def panics (l t r b : Rat) (segs : List Seg) : Bool :=
  match rasterize l t r b segs with
  | .panic => true
  | _ => false

/-- **C130.**  The bounds are not limited: an outline three thousand million pixels to the left of the frame, or one that wide, makes the size overflow. -/
theorem C130_overflow_violated : ∃ l t r b segs, Begins segs ∧ (∀ s ∈ segs, ∀ p ∈ Seg.points s, l ≤ p.1 ∧ p.1 ≤ r ∧ t ≤ p.2 ∧ p.2 ≤ b) ∧ rasterize l t r b segs = .panic := by
  refine ⟨-3000000000, 0, 0, 1, [.moveTo (-3000000000, 0), .lineTo (0, 1), .close], fun s h => ⟨(-3000000000, 0), by cases h; rfl⟩, ?_, ?_⟩
  · intro s hs p hp
    rcases List.mem_cons.1 hs with rfl | hs
    · cases List.mem_singleton.1 hp
      exact ⟨by decide +kernel, by decide +kernel, by decide +kernel, by decide +kernel⟩
    · rcases List.mem_cons.1 hs with rfl | hs
      · cases List.mem_singleton.1 hp
        exact ⟨by decide +kernel, by decide +kernel, by decide +kernel, by decide +kernel⟩
      · cases List.mem_singleton.1 hs
        exact absurd hp List.not_mem_nil
  · have : panics (-3000000000) 0 0 1 [.moveTo (-3000000000, 0), .lineTo (0, 1), .close] = true := by decide +kernel
    unfold panics at this
    split at this
    · assumption
    · exact nomatch this

/-- **C130.**  A curve is not always within the fifth of a pixel that raster/mod.rs names: at most 64 chords are used, however large the curve is, and a curve of a hundred thousand pixels is five pixels from them. -/
theorem C130_coarse_violated : ∃ a c b : Point, quadSteps a c b = 64 ∧ ¬ Fine 25 (quadratic a c b) (quadSteps a c b) := by
  refine ⟨(0, 0), (50000, 50000), (100000, 0), by decide +kernel, ?_⟩
  have e : quadSteps (0, 0) (50000, 50000) (100000, 0) = 64 := by decide +kernel
  rw [e]
  intro h
  have := h 0 (1 / 2) (by decide) (by decide +kernel) (by decide +kernel)
  exact absurd this (by decide +kernel)

/-- **C130.**  Cubic curves are not within a fifth of a pixel even if they are small: below, a point of the curve is farther than two fifths from every point of the two chords. -/
theorem C130_cubic_violated : ∃ (a c d b : Point) (u : Rat), cubicSteps a c d b = 2 ∧ 0 ≤ u ∧ u ≤ 1 ∧
    ∀ e ∈ chords (cubical a c d b) (cubicSteps a c d b), ∀ s, 0 ≤ s → s ≤ 1 → 4 / 25 < gap (cubical a c d b u) (e.part s) := by
  refine ⟨(0, 0), (10, 0), (20, 31 / 10), (30, 31 / 5), 1 / 4, by decide +kernel, by decide +kernel, by decide +kernel, ?_⟩
  have e : cubicSteps (0, 0) (10, 0) (20, 31 / 10) (30, 31 / 5) = 2 := by decide +kernel
  have e2 : chords (cubical (0, 0) (10, 0) (20, 31 / 10) (30, 31 / 5)) 2 = [⟨(0, 0), (15, 31 / 16)⟩, ⟨(15, 31 / 16), (30, 31 / 5)⟩] := by decide +kernel
  have e3 : cubical (0, 0) (10, 0) (20, 31 / 10) (30, 31 / 5) (1 / 4) = (15 / 2, 341 / 640) := by decide +kernel
  rw [e, e2, e3]
  intro f hf s h0 h1
  rcases List.mem_cons.1 hf with rfl | hf
  · unfold gap Edge.part
    dsimp only
    have := square_nonneg (s - 1162571 / 2342440)
    grind
  · cases List.mem_singleton.1 hf
    unfold gap Edge.part
    dsimp only
    have := square_nonneg (31 / 16 + s * (31 / 5 - 31 / 16) - 341 / 640)
    have := square_nonneg s
    grind

end Verif.Props.Raster
