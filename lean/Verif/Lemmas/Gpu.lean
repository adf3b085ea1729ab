import Verif.Spec.Gpu
import Verif.Lemmas.Blend
/-!
# Lemmas: positions of quads
-/
namespace Verif.Gpu
open Verif Verif.Spec.Gpu

theorem scaled {f : Rat → Rat} (hf : Faithful f) {q W M : Rat} (hW : 1 ≤ W) (hW' : W ≤ 8192) (hM : M ≤ 2 ^ 23)
    (h1 : -M ≤ q * W) (h2 : q * W ≤ M) :
    q * W - M / 2 ^ 24 - 1 / 2 ^ 80 ≤ f q * W ∧ f q * W ≤ q * W + M / 2 ^ 24 + 1 / 2 ^ 80 := by
  have hp : (0 : Rat) ≤ W := by grind
  have ha : max q (-q) * W ≤ M := by
    by_cases h0 : 0 ≤ q
    · rw [show max q (-q) = q by grind]
      exact h2
    · rw [show max q (-q) = -q by grind]
      grind
  have hb : max q (-q) ≤ max q (-q) * W := by
    have := Rat.mul_le_mul_of_nonneg_left hW (show (0 : Rat) ≤ max q (-q) by grind)
    rwa [Rat.mul_one] at this
  obtain ⟨a, b⟩ := hf.2 q (by grind) (by grind)
  have a' := Rat.mul_le_mul_of_nonneg_right a hp
  have b' := Rat.mul_le_mul_of_nonneg_right b hp
  have e1 : (q - max q (-q) / 2 ^ 24 - 1 / 2 ^ 100) * W = q * W - (max q (-q) * W) / 2 ^ 24 - W / 2 ^ 100 := by grind
  have e2 : (q + max q (-q) / 2 ^ 24 + 1 / 2 ^ 100) * W = q * W + (max q (-q) * W) / 2 ^ 24 + W / 2 ^ 100 := by grind
  rw [e1] at a'
  rw [e2] at b'
  generalize max q (-q) * W = m at *
  generalize f q * W = c at *
  generalize q * W = d at *
  clear e1 e2 a b hb h1 h2
  constructor <;> grind

/-- The left and right edges, in half pixels. -/
theorem across {f : Rat → Rat} (hf : Faithful f) {L W : Rat} (hW : 1 ≤ W) (hW' : W ≤ 8192) (h1 : -2 ^ 21 ≤ L) (h2 : L ≤ 2 ^ 21) :
    2 * L - W - 1 < acrossPos f L W * W ∧ acrossPos f L W * W < 2 * L - W + 1 := by
  have e1 : L / W * W = L := by grind
  have s1 := scaled hf (q := L / W) (M := 2 ^ 21) hW hW' (by grind) (by grind) (by grind)
  rw [e1] at s1
  have e2 : f (L / W) * 2 * W = 2 * (f (L / W) * W) := by grind
  have s2 := scaled hf (q := f (L / W) * 2) (M := 2 ^ 22 + 1) hW hW' (by grind) (by grind) (by grind)
  rw [e2] at s2
  have e3 : (f (f (L / W) * 2) - 1) * W = f (f (L / W) * 2) * W - W := by grind
  have s3 := scaled hf (q := f (f (L / W) * 2) - 1) (M := 2 ^ 22 + 9000) hW hW' (by grind) (by grind) (by grind)
  rw [e3] at s3
  unfold acrossPos
  constructor <;> grind

/-- The top and bottom edges, in half pixels. -/
theorem down {f : Rat → Rat} (hf : Faithful f) {L W : Rat} (hW : 1 ≤ W) (hW' : W ≤ 8192) (h1 : -2 ^ 21 ≤ L) (h2 : L ≤ 2 ^ 21) :
    W - 2 * L - 1 < downPos f L W * W ∧ downPos f L W * W < W - 2 * L + 1 := by
  have e1 : L / W * W = L := by grind
  have s1 := scaled hf (q := L / W) (M := 2 ^ 21) hW hW' (by grind) (by grind) (by grind)
  rw [e1] at s1
  have e2 : f (L / W) * 2 * W = 2 * (f (L / W) * W) := by grind
  have s2 := scaled hf (q := f (L / W) * 2) (M := 2 ^ 22 + 1) hW hW' (by grind) (by grind) (by grind)
  rw [e2] at s2
  have e3 : (1 - f (f (L / W) * 2)) * W = W - f (f (L / W) * 2) * W := by grind
  have s3 := scaled hf (q := 1 - f (f (L / W) * 2)) (M := 2 ^ 22 + 9000) hW hW' (by grind) (by grind) (by grind)
  rw [e3] at s3
  unfold downPos
  constructor <;> grind

/-- A pixel centre and a pair of edges less than half a pixel off. -/
theorem inside {e e' : Rat} {L n : Int} {w : Nat} (he : -1 < e ∧ e < 1) (he' : -1 < e' ∧ e' < 1) :
    (2 * (L : Rat) + e ≤ 2 * (n : Rat) + 1 ∧ 2 * (n : Rat) + 1 < 2 * ((L : Rat) + (w : Rat)) + e') ↔ (L ≤ n ∧ n < L + w) := by
  have hw : ((w : Int) : Rat) = (w : Rat) := Rat.intCast_natCast w
  constructor
  · rintro ⟨a, b⟩
    constructor
    · have : (L : Rat) < ((n + 1 : Int) : Rat) := by
        rw [Rat.intCast_add]
        grind
      have := Rat.intCast_lt_intCast.1 this
      omega
    · have : (n : Rat) < ((L + w : Int) : Rat) := by
        rw [Rat.intCast_add, hw]
        grind
      exact Rat.intCast_lt_intCast.1 this
  · rintro ⟨a, b⟩
    have a' : (L : Rat) ≤ (n : Rat) := Rat.intCast_le_intCast.2 a
    have b' : ((n + 1 : Int) : Rat) ≤ ((L + w : Int) : Rat) := Rat.intCast_le_intCast.2 (by omega)
    rw [Rat.intCast_add, Rat.intCast_add, hw] at b'
    constructor <;> grind

/-- The texel that a pixel centre falls on. -/
theorem texel_at {e e' : Rat} {i w : Nat} (he : -1 < e ∧ e < 1) (he' : -1 < e' ∧ e' < 1) (hi : i < w) :
    ((2 * (i : Rat) + 1 - e) / (2 * (w : Rat) + e' - e) * w).floor.toNat = i := by
  have h0 : (0 : Rat) ≤ i := Rat.natCast_nonneg
  have hw : (i : Rat) + 1 ≤ w := by
    have : ((i + 1 : Nat) : Rat) ≤ (w : Rat) := Rat.natCast_le_natCast.2 hi
    rwa [Rat.natCast_add] at this
  have hd : (0 : Rat) < 2 * (w : Rat) + e' - e := by grind
  have k1 : 0 ≤ (1 - e) * ((w : Rat) - i) := Rat.mul_nonneg (by grind) (by grind)
  have k2 : 0 ≤ (1 - e') * (i : Rat) := Rat.mul_nonneg (by grind) h0
  have k3 : 0 ≤ (1 + e) * ((w : Rat) - i - 1) := Rat.mul_nonneg (by grind) (by grind)
  have k4 : 0 < (1 + e') * ((i : Rat) + 1) := Rat.mul_pos (by grind) (by grind)
  have hfl : ((2 * (i : Rat) + 1 - e) / (2 * (w : Rat) + e' - e) * w).floor = (i : Int) := by
    generalize hq : (2 * (i : Rat) + 1 - e) / (2 * (w : Rat) + e' - e) * w = q
    have hq' : q * (2 * (w : Rat) + e' - e) = (2 * (i : Rat) + 1 - e) * w := by
      rw [← hq]
      grind
    have l1 : (i : Rat) ≤ q := by
      apply Rat.not_lt.1
      intro hlt
      have := Rat.mul_pos (show (0 : Rat) < i - q by grind) hd
      grind
    have l2 : q < (i : Rat) + 1 := by
      apply Rat.not_le.1
      intro hlt
      have := Rat.mul_nonneg (show (0 : Rat) ≤ q - (i + 1) by grind) (Rat.le_of_lt hd)
      grind
    have m1 : (i : Int) ≤ q.floor := Rat.le_floor_iff.2 (by rw [Rat.intCast_natCast]; exact l1)
    have m2 : q.floor < (i : Int) + 1 := Rat.floor_lt_iff.2 (by rw [Rat.intCast_add, Rat.intCast_natCast]; exact l2)
    omega
  rw [hfl]
  rfl


theorem le_scale {a b W : Rat} (hW : 0 < W) : a ≤ b ↔ a * W ≤ b * W := by
  constructor
  · intro h
    exact Rat.mul_le_mul_of_nonneg_right h (Rat.le_of_lt hW)
  · intro h
    apply Rat.not_lt.1
    intro hlt
    have := Rat.mul_pos (show (0 : Rat) < a - b by grind) hW
    grind

theorem lt_scale {a b W : Rat} (hW : 0 < W) : a < b ↔ a * W < b * W := by
  rw [← Rat.not_le, ← Rat.not_le, le_scale hW]

theorem frac_scale {a b W : Rat} (hW : 0 < W) : a / b = (a * W) / (b * W) := by
  by_cases hb : b = 0
  · subst hb
    rw [Rat.zero_mul, Rat.div_def, Rat.div_def, Rat.inv_zero, Rat.mul_zero, Rat.mul_zero]
  · grind

/-- What a pixel sees of a quad whose edges are less than half a pixel off. -/
theorem hit_of {q : Quad} {tw th w h : Nat} {x y : Int} {px py : Nat} {e1 e2 e3 e4 : Rat} (hw : 0 < tw) (hh : 0 < th)
    (h1 : q.left * tw = 2 * (x : Rat) - tw + e1) (h2 : q.right * tw = 2 * ((x : Rat) + (w : Rat)) - tw + e2)
    (h3 : q.top * th = th - 2 * (y : Rat) - e3) (h4 : q.bottom * th = th - 2 * ((y : Rat) + (h : Rat)) - e4)
    (b1 : -1 < e1 ∧ e1 < 1) (b2 : -1 < e2 ∧ e2 < 1) (b3 : -1 < e3 ∧ e3 < 1) (b4 : -1 < e4 ∧ e4 < 1) :
    hit q tw th w h px py =
      if Within w h x y px py then some (((px : Int) - x).toNat, ((py : Int) - y).toNat) else none := by
  have pw : (0 : Rat) < tw := by
    have := Rat.natCast_lt_natCast.2 hw
    simpa using this
  have ph : (0 : Rat) < th := by
    have := Rat.natCast_lt_natCast.2 hh
    simpa using this
  have cw : ((2 * (px : Rat) + 1) / tw - 1) * tw = 2 * (px : Rat) + 1 - tw := by grind
  have ch : (1 - (2 * (py : Rat) + 1) / th) * th = th - (2 * (py : Rat) + 1) := by grind
  have i1 := inside (L := x) (n := px) (w := w) b1 b2
  have i2 := inside (L := y) (n := py) (w := h) b3 b4
  rw [Rat.intCast_natCast] at i1 i2
  have hc : (q.left ≤ (2 * (px : Rat) + 1) / tw - 1 ∧ (2 * (px : Rat) + 1) / tw - 1 < q.right ∧
      q.bottom < 1 - (2 * (py : Rat) + 1) / th ∧ 1 - (2 * (py : Rat) + 1) / th ≤ q.top) ↔ Within w h x y px py := by
    rw [le_scale (a := q.left) pw, lt_scale (b := q.right) pw, lt_scale (a := q.bottom) ph, le_scale (b := q.top) ph, cw, ch, h1, h2, h3, h4]
    unfold Within
    constructor
    · rintro ⟨a, b, c, d⟩
      have j1 := i1.1 ⟨by grind, by grind⟩
      have j2 := i2.1 ⟨by grind, by grind⟩
      exact ⟨j1.1, j1.2, j2.1, j2.2⟩
    · rintro ⟨a, b, c, d⟩
      have j1 := i1.2 ⟨a, b⟩
      have j2 := i2.2 ⟨c, d⟩
      refine ⟨?_, ?_, ?_, ?_⟩ <;> grind
  unfold hit
  dsimp only
  by_cases hin : Within w h x y px py
  · rw [if_pos (hc.2 hin), if_pos hin]
    obtain ⟨a, b, c, d⟩ := hin
    obtain ⟨i, hi⟩ := Int.eq_ofNat_of_zero_le (show 0 ≤ (px : Int) - x by omega)
    obtain ⟨j, hj⟩ := Int.eq_ofNat_of_zero_le (show 0 ≤ (py : Int) - y by omega)
    have ri : (px : Rat) = x + i := by
      have : ((px : Int) : Rat) = ((x + i : Int) : Rat) := by rw [show (px : Int) = x + i by omega]
      rwa [Rat.intCast_add, Rat.intCast_natCast, Rat.intCast_natCast] at this
    have rj : (py : Rat) = y + j := by
      have : ((py : Int) : Rat) = ((y + j : Int) : Rat) := by rw [show (py : Int) = y + j by omega]
      rwa [Rat.intCast_add, Rat.intCast_natCast, Rat.intCast_natCast] at this
    have t1 := texel_at (i := i) (w := w) b1 b2 (by omega)
    have t2 := texel_at (i := j) (w := h) b3 b4 (by omega)
    rw [frac_scale pw (a := (2 * (px : Rat) + 1) / tw - 1 - q.left) (b := q.right - q.left),
      frac_scale ph (a := q.top - (1 - (2 * (py : Rat) + 1) / th)) (b := q.top - q.bottom)]
    rw [show ((2 * (px : Rat) + 1) / tw - 1 - q.left) * tw = 2 * (i : Rat) + 1 - e1 by grind,
      show (q.right - q.left) * tw = 2 * (w : Rat) + e2 - e1 by grind,
      show (q.top - (1 - (2 * (py : Rat) + 1) / th)) * th = 2 * (j : Rat) + 1 - e3 by grind,
      show (q.top - q.bottom) * th = 2 * (h : Rat) + e4 - e3 by grind, t1, t2, hi, hj]
    rfl
  · rw [if_neg (fun hh => hin (hc.1 hh)), if_neg hin]

/-- What a pixel sees of the quad of a tile. -/
theorem hit_tile {f : Rat → Rat} (hf : Faithful f) {q : Quad} {tw th w h : Nat} {x y : Int} (px py : Nat)
    (ht : Size tw th) (hs : Size w h) (hn : Near x y) (h1 : q.left = acrossPos f x tw) (h2 : q.right = acrossPos f (x + w : Int) tw)
    (h3 : q.top = downPos f y th) (h4 : q.bottom = downPos f (y + h : Int) th) :
    hit q tw th w h px py =
      if Within w h x y px py then some (((px : Int) - x).toNat, ((py : Int) - y).toNat) else none := by
  have bound : ∀ n : Nat, 1 ≤ n → n ≤ 8192 → (1 : Rat) ≤ n ∧ (n : Rat) ≤ 8192 := by
    intro n a b
    exact ⟨by simpa using Rat.natCast_le_natCast.2 a, by simpa using Rat.natCast_le_natCast.2 b⟩
  have ibound : ∀ n : Int, -2 ^ 21 ≤ n → n ≤ 2 ^ 21 → (-2 ^ 21 : Rat) ≤ n ∧ (n : Rat) ≤ 2 ^ 21 := by
    intro n a b
    have a' := Rat.intCast_le_intCast.2 a
    have b' := Rat.intCast_le_intCast.2 b
    rw [show ((-2 ^ 21 : Int) : Rat) = -2 ^ 21 by decide +kernel] at a'
    rw [show ((2 ^ 21 : Int) : Rat) = 2 ^ 21 by decide +kernel] at b'
    exact ⟨a', b'⟩
  obtain ⟨s1, s2, s3, s4⟩ := hs
  obtain ⟨t1, t2, t3, t4⟩ := ht
  obtain ⟨n1, n2, n3, n4⟩ := hn
  have bw := bound tw t1 t3
  have bh := bound th t2 t4
  have x1 := ibound x (by omega) (by omega)
  have x2 := ibound (x + w) (by omega) (by omega)
  have y1 := ibound y (by omega) (by omega)
  have y2 := ibound (y + h) (by omega) (by omega)
  have c1 := across hf bw.1 bw.2 x1.1 x1.2
  have c2 := across hf bw.1 bw.2 x2.1 x2.2
  have c3 := down hf bh.1 bh.2 y1.1 y1.2
  have c4 := down hf bh.1 bh.2 y2.1 y2.2
  rw [← h1] at c1
  rw [← h2, Rat.intCast_add, Rat.intCast_natCast] at c2
  rw [← h3] at c3
  rw [← h4, Rat.intCast_add, Rat.intCast_natCast] at c4
  refine hit_of (e1 := q.left * tw - (2 * (x : Rat) - tw)) (e2 := q.right * tw - (2 * ((x : Rat) + (w : Rat)) - tw))
    (e3 := th - 2 * (y : Rat) - q.top * th) (e4 := th - 2 * ((y : Rat) + (h : Rat)) - q.bottom * th) t1 t2 ?_ ?_ ?_ ?_ ?_ ?_ ?_ ?_
  all_goals grind

/-- A pixel sees the texel at its own place of a quad that fills the target. -/
theorem hit_full {tw th : Nat} {px py : Nat} (hx : px < tw) (hy : py < th) : hit fullFrame tw th tw th px py = some (px, py) := by
  rw [hit_of (q := fullFrame) (x := 0) (y := 0) (e1 := 0) (e2 := 0) (e3 := 0) (e4 := 0) (by omega) (by omega)]
  · rw [if_pos (show Within tw th 0 0 px py from ⟨by omega, by omega, by omega, by omega⟩)]
    simp
  · simp only [fullFrame]
    grind
  · simp only [fullFrame]
    grind
  · simp only [fullFrame]
    grind
  · simp only [fullFrame]
    grind
  all_goals exact ⟨by decide +kernel, by decide +kernel⟩


open Verif.Blend (bind i32 asI32 slice)

theorem bind_some {α β : Type} {o : Outcome α} {f : α → Outcome β} {b : β} (h : bind o f = .ok b) : ∃ a, o = .ok a ∧ f a = .ok b := by
  cases o with
  | ok a => exact ⟨a, rfl, h⟩
  | err => exact nomatch h
  | panic => exact nomatch h

theorem bind_of {α β : Type} {o : Outcome α} {f : α → Outcome β} {a : α} (h : o = .ok a) : bind o f = f a := by
  rw [h]
  rfl

/-! ## Tiles -/

theorem rect_ok {f : Rat → Rat} (hf : Faithful f) {x y : Int} {w h fw fh : Nat} (hs : Size w h) (ht : Size fw fh) (hn : Near x y) :
    tileRect f x y w h fw fh =
      .ok (acrossPos f x fw, downPos f y fh, acrossPos f (x + w : Int) fw, downPos f (y + h : Int) fh) := by
  obtain ⟨s1, s2, s3, s4⟩ := hs
  obtain ⟨t1, t2, t3, t4⟩ := ht
  obtain ⟨n1, n2, n3, n4⟩ := hn
  unfold tileRect
  rw [show asI32 w = w by unfold asI32; rw [if_pos (by omega)], show asI32 h = h by unfold asI32; rw [if_pos (by omega)],
    bind_of (show i32 (x + w) = .ok (x + w) by unfold i32; rw [if_pos (by omega)]),
    bind_of (show i32 (y + h) = .ok (y + h) by unfold i32; rw [if_pos (by omega)])]
  rw [hf.1 x (by omega) (by omega), hf.1 y (by omega) (by omega), hf.1 (x + w) (by omega) (by omega), hf.1 (y + h) (by omega) (by omega),
    ← Rat.intCast_natCast fw, ← Rat.intCast_natCast fh, hf.1 fw (by omega) (by omega), hf.1 fh (by omega) (by omega)]

/-- The description of a bitmap is right. -/
def Describes (store : Rat → Nat) (fw fh : Nat) (b : Bitmap) (d : Desc) : Prop :=
  d.rowBytes = d.w * d.fmt.size ∧ d.data.length = d.w * d.h * d.fmt.size ∧ Size d.w d.h ∧
    ∀ (pic : Nat → Nat → Px) (px py : Nat),
      drawQuad store d.quad d.w d.h (texelOf d.fmt d.w d.data) fw fh pic px py = add store px py (pic px py) b

theorem describe_ok {f : Rat → Rat} (hf : Faithful f) (store : Rat → Nat) {fw fh : Nat} (ht : Size fw fh) {b : Bitmap} (hb : Fitting b) :
    ∃ d, describe f fw fh b = .ok d ∧ Describes store fw fh b d := by
  cases b with
  | coverage w h data x y r g b a =>
    obtain ⟨hs, hn, hl⟩ := hb
    rw [describe]
    rw [bind_of (rect_ok hf hs ht hn)]
    refine ⟨_, rfl, (Nat.mul_one w).symm, by rw [show Fmt.size .r8 = 1 from rfl, Nat.mul_one]; exact hl, hs, ?_⟩
    intro pic px py
    unfold drawQuad
    rw [hit_tile hf px py ht hs hn rfl rfl rfl rfl]
    unfold add
    by_cases hin : Within w h x y px py
    · rw [if_pos hin]
      simp only [shows, if_pos hin]
      rfl
    · rw [if_neg hin]
      simp only [shows, if_neg hin]
  | rgba w h data x y =>
    obtain ⟨hs, hn, hl⟩ := hb
    rw [describe]
    have hu : u32 (w * 4) = .ok (w * 4) := by
      obtain ⟨s1, s2, s3, s4⟩ := hs
      unfold u32
      rw [if_pos (by omega)]
    rw [bind_of (rect_ok hf hs ht hn), bind_of hu]
    refine ⟨_, rfl, rfl, hl, hs, ?_⟩
    intro pic px py
    unfold drawQuad
    rw [hit_tile hf px py ht hs hn rfl rfl rfl rfl]
    unfold add
    by_cases hin : Within w h x y px py
    · rw [if_pos hin]
      simp only [shows, if_pos hin, texelOf, place]
      rw [Nat.mul_comm 4]
      rfl
    · rw [if_neg hin]
      simp only [shows, if_neg hin]

/-- The free tiles are different textures, all made. -/
def HeapOk (hp : Heap) : Prop := (hp.free.map Tile.id).Nodup ∧ ∀ t ∈ hp.free, t.id < hp.textures.length

theorem perm_erase {l : List Tile} {p : Tile → Bool} {t : Tile} (h : l.find? p = some t) : List.Perm (t :: l.eraseP p) l := by
  induction l with
  | nil => exact nomatch h
  | cons a l ih =>
    by_cases ha : p a = true
    · rw [List.find?_cons_of_pos ha] at h
      rw [List.eraseP_cons_of_pos ha]
      cases h
      exact List.Perm.refl _
    · rw [List.find?_cons_of_neg ha] at h
      rw [List.eraseP_cons_of_neg ha]
      exact (List.Perm.swap a t _).trans ((ih h).cons a)

theorem acquire_spec {dev : Device} {hp hp' : Heap} {fmt : Fmt} {w h : Nat} {t : Tile} (hok : HeapOk hp)
    (ha : acquire dev hp fmt w h = .ok (t, hp')) :
    (t.fmt = fmt ∧ t.w = w ∧ t.h = h) ∧ (t.id :: hp'.free.map Tile.id).Nodup ∧ t.id < hp'.textures.length ∧
      (∀ s ∈ hp'.free, s ∈ hp.free) ∧ hp.textures.length ≤ hp'.textures.length ∧
      (∀ i, i < hp.textures.length → hp'.textures[i]? = hp.textures[i]?) ∧ (t ∈ hp.free ∨ hp.textures.length ≤ t.id) := by
  unfold acquire at ha
  cases hfind : hp.free.find? (Tile.fits fmt w h) with
  | some s =>
    rw [hfind] at ha
    cases ha
    have hperm := perm_erase hfind
    have hm : t ∈ hp.free := List.mem_of_find?_eq_some hfind
    have hfit := List.find?_some hfind
    refine ⟨of_decide_eq_true hfit, ?_, hok.2 t hm, ?_, Nat.le_refl _, fun _ _ => rfl, .inl hm⟩
    · exact ((hperm.map Tile.id).nodup_iff).2 hok.1
    · intro r hr
      exact List.mem_of_mem_eraseP hr
  | none =>
    rw [hfind] at ha
    dsimp only at ha
    split at ha
    · cases ha
      refine ⟨⟨rfl, rfl, rfl⟩, ?_, ?_, fun _ hs => hs, ?_, ?_, .inr (Nat.le_refl _)⟩
      · refine List.nodup_cons.2 ⟨?_, hok.1⟩
        intro hmem
        obtain ⟨s, hs, he⟩ := List.mem_map.1 hmem
        have := hok.2 s hs
        dsimp only at he
        omega
      · show hp.textures.length < (hp.textures ++ [[]]).length
        rw [List.length_append]
        exact Nat.lt_succ_self _
      · show hp.textures.length ≤ (hp.textures ++ [[]]).length
        rw [List.length_append]
        exact Nat.le_succ _
      · intro i hi
        exact List.getElem?_append_left hi
    · exact nomatch ha

/-- Tiles, quads and textures that come of bitmaps. -/
def Loaded (f : Rat → Rat) (fw fh : Nat) (textures : List (List Nat)) : List Bitmap → List Tile → List Quad → Prop
  | [], [], [] => True
  | b :: bs, t :: ts, q :: qs =>
    (∃ d, describe f fw fh b = .ok d ∧ q = d.quad ∧ t.fmt = d.fmt ∧ t.w = d.w ∧ t.h = d.h ∧
      textures[t.id]? = some (d.data.take (d.w * d.h * d.fmt.size))) ∧ Loaded f fw fh textures bs ts qs
  | _, _, _ => False

theorem prepare_spec {dev : Device} {fw fh : Nat} : ∀ {bs : List Bitmap} {hp hp' : Heap} {ts : List Tile} {qs : List Quad},
    HeapOk hp → prepare dev fw fh bs hp = .ok (ts, qs, hp') →
    (ts.map Tile.id ++ hp'.free.map Tile.id).Nodup ∧ (∀ t ∈ ts, t.id < hp'.textures.length) ∧ (∀ s ∈ hp'.free, s ∈ hp.free) ∧
      hp.textures.length ≤ hp'.textures.length ∧
      (∀ i, i < hp.textures.length → i ∉ ts.map Tile.id → hp'.textures[i]? = hp.textures[i]?) ∧
      (∀ t ∈ ts, t ∈ hp.free ∨ hp.textures.length ≤ t.id) ∧ Loaded dev.f32 fw fh hp'.textures bs ts qs := by
  intro bs
  induction bs with
  | nil =>
    intro hp hp' ts qs hok h
    cases h
    exact ⟨hok.1, fun _ h => absurd h List.not_mem_nil, fun _ h => h, Nat.le_refl _, fun _ _ _ => rfl,
      fun _ h => absurd h List.not_mem_nil, trivial⟩
  | cons b bs ih =>
    intro hp hp' ts qs hok h
    rw [prepare] at h
    obtain ⟨d, hd, h⟩ := bind_some h
    obtain ⟨⟨t, h1⟩, ha, h⟩ := bind_some h
    obtain ⟨h2, hu, h⟩ := bind_some h
    obtain ⟨⟨ts', qs', h3⟩, hr, h⟩ := bind_some h
    cases h
    obtain ⟨a1, a2, a3, a4, a5, a6, a7⟩ := acquire_spec hok ha
    unfold upload at hu
    split at hu
    · rename_i hc
      cases hu
      have hok2 : HeapOk ⟨h1.textures.set t.id (d.data.take (t.w * t.h * t.fmt.size)), h1.free⟩ := by
        refine ⟨(List.nodup_cons.1 a2).2, ?_⟩
        intro s hs
        have := hok.2 s (a4 s hs)
        show s.id < (h1.textures.set _ _).length
        rw [List.length_set]
        omega
      obtain ⟨b1, b2, b3, b4, b5, b6, b7⟩ := ih hok2 hr
      have hlen : (h1.textures.set t.id (d.data.take (t.w * t.h * t.fmt.size))).length = h1.textures.length := List.length_set
      have b4' : h1.textures.length ≤ h3.textures.length := by
        rw [← hlen]
        exact b4
      have hnot : t.id ∉ ts'.map Tile.id := by
        intro hmem
        obtain ⟨s, hs, he⟩ := List.mem_map.1 hmem
        rcases b6 s hs with hfree | hnew
        · exact (List.nodup_cons.1 a2).1 (he ▸ List.mem_map_of_mem hfree)
        · rw [show (Heap.textures ⟨h1.textures.set t.id (d.data.take (t.w * t.h * t.fmt.size)), h1.free⟩).length =
            h1.textures.length from hlen] at hnew
          omega
      have hnot' : t.id ∉ h3.free.map Tile.id := by
        intro hmem
        obtain ⟨s, hs, he⟩ := List.mem_map.1 hmem
        exact (List.nodup_cons.1 a2).1 (he ▸ List.mem_map_of_mem (b3 s hs))
      refine ⟨?_, ?_, fun s hs => a4 s (b3 s hs), Nat.le_trans a5 b4', ?_, ?_, ?_, b7⟩
      · rw [List.map_cons, List.cons_append, List.nodup_cons]
        exact ⟨fun hmem => (List.mem_append.1 hmem).elim hnot hnot', b1⟩
      · intro s hs
        rcases List.mem_cons.1 hs with hst | hs
        · rw [hst]
          exact Nat.lt_of_lt_of_le a3 b4'
        · exact b2 s hs
      · intro i hi hni
        rw [List.map_cons, List.mem_cons, not_or] at hni
        have := b5 i (by rw [show (Heap.textures ⟨h1.textures.set t.id (d.data.take (t.w * t.h * t.fmt.size)), h1.free⟩).length =
            h1.textures.length from hlen]; omega) hni.2
        rw [this]
        show (h1.textures.set _ _)[i]? = _
        rw [List.getElem?_set_ne (fun he => hni.1 he.symm), a6 i hi]
      · intro s hs
        rcases List.mem_cons.1 hs with rfl | hs
        · exact a7
        · rcases b6 s hs with hfree | hnew
          · exact .inl (a4 s hfree)
          · right
            rw [show (Heap.textures ⟨h1.textures.set t.id (d.data.take (t.w * t.h * t.fmt.size)), h1.free⟩).length =
              h1.textures.length from hlen] at hnew
            omega
      · refine ⟨d, hd, rfl, a1.1, a1.2.1, a1.2.2, ?_⟩
        rw [b5 t.id (by rw [show (Heap.textures ⟨h1.textures.set t.id (d.data.take (t.w * t.h * t.fmt.size)), h1.free⟩).length =
            h1.textures.length from hlen]; omega) hnot]
        show (h1.textures.set _ _)[t.id]? = _
        rw [List.getElem?_set_self (by omega), a1.1, a1.2.1, a1.2.2]
    · exact nomatch hu

/-- The textures of fitting bitmaps are always made. -/
theorem prepare_ok {dev : Device} (hd : Usual dev) (hf : Faithful dev.f32) {fw fh : Nat} (ht : Size fw fh) :
    ∀ {bs : List Bitmap} {hp : Heap}, (∀ b ∈ bs, Fitting b) → ∃ r, prepare dev fw fh bs hp = .ok r := by
  intro bs
  induction bs with
  | nil => intro hp _; exact ⟨_, rfl⟩
  | cons b bs ih =>
    intro hp hb
    rw [prepare]
    obtain ⟨d, hd1, hd2, hd3, hd4, _⟩ := describe_ok hf dev.store ht (hb b List.mem_cons_self)
    rw [bind_of hd1]
    have ha : ∃ t h1, acquire dev hp d.fmt d.w d.h = .ok (t, h1) ∧ t.fmt = d.fmt ∧ t.w = d.w ∧ t.h = d.h := by
      unfold acquire
      cases hfind : hp.free.find? (Tile.fits d.fmt d.w d.h) with
      | some s =>
        have hfit := List.find?_some hfind
        exact ⟨s, _, rfl, of_decide_eq_true hfit⟩
      | none =>
        dsimp only
        obtain ⟨s1, s2, s3, s4⟩ := hd4
        rw [if_pos ⟨s1, s2, by rw [hd.1]; exact s3, by rw [hd.1]; exact s4⟩]
        exact ⟨_, _, rfl, rfl, rfl, rfl⟩
    obtain ⟨t, h1, ha, e1, e2, e3⟩ := ha
    rw [bind_of ha]
    have hu : upload h1 t d.data d.rowBytes =
        .ok ⟨h1.textures.set t.id (d.data.take (t.w * t.h * t.fmt.size)), h1.free⟩ := by
      unfold upload
      rw [if_pos ⟨by rw [e1, e2]; exact hd2, by rw [e1, e2, e3, hd3]; exact Nat.le_refl _⟩]
    rw [bind_of hu]
    obtain ⟨r, hr⟩ := ih (hp := ⟨h1.textures.set t.id (d.data.take (t.w * t.h * t.fmt.size)), h1.free⟩)
      (fun c hc => hb c (List.mem_cons_of_mem _ hc))
    rw [bind_of hr]
    exact ⟨_, rfl⟩


/-! ## Drawing -/

theorem quad_at {dev : Device} (hd : Usual dev) {u : Uniforms} {k : Nat} {q : Quad} (hk : k < u.capacity) (hq : u.quads[k]? = some q) :
    quadAt dev 256 u (k * 256) = .ok q := by
  unfold quadAt
  rw [if_pos ⟨by rw [hd.2.2]; omega, by unfold uniformSize; omega⟩, show k * 256 / 256 = k by omega, hq]

theorem draw_spec {dev : Device} (hd : Usual dev) (hf : Faithful dev.f32) {fw fh : Nat} (ht : Size fw fh) {u : Uniforms}
    {textures : List (List Nat)} : ∀ {bs : List Bitmap} {ts : List Tile} {qs : List Quad} {k : Nat} {pic : Nat → Nat → Px},
    (∀ b ∈ bs, Fitting b) → Loaded dev.f32 fw fh textures bs ts qs → k + bs.length ≤ u.capacity → k + bs.length ≤ 2 ^ 20 →
    (∀ i, i < qs.length → u.quads[k + i]? = qs[i]?) →
    drawTiles dev 256 u textures fw fh ts (k * 256) pic = .ok (fun px py => bs.foldl (add dev.store px py) (pic px py)) := by
  intro bs
  induction bs with
  | nil =>
    intro ts qs k pic _ hl _ _ _
    cases ts with
    | nil => rfl
    | cons t ts => cases qs <;> exact hl.elim
  | cons b bs ih =>
    intro ts qs k pic hb hl hc hn hq
    cases ts with
    | nil => exact hl.elim
    | cons t ts =>
      cases qs with
      | nil => exact hl.elim
      | cons q qs =>
        obtain ⟨⟨d, hd1, hd2, hd3, hd4, hd5, hd6⟩, hl⟩ := hl
        obtain ⟨d', he, hs⟩ := describe_ok hf dev.store ht (hb b List.mem_cons_self)
        rw [hd1] at he
        cases he
        rw [List.length_cons] at hc hn
        rw [drawTiles, bind_of (quad_at hd (by omega) (by
          have := hq 0 (by rw [List.length_cons]; omega)
          rw [Nat.add_zero] at this
          rw [this]
          rfl)), bind_of (show u32 (k * 256 + 256) = .ok ((k + 1) * 256) by
          unfold u32
          rw [if_pos (by omega)]
          exact congrArg Outcome.ok (by omega))]
        rw [ih (fun c hc => hb c (List.mem_cons_of_mem _ hc)) hl (by omega) (by omega) (by
          intro i hi
          have := hq (i + 1) (by rw [List.length_cons]; omega)
          rw [List.getElem?_cons_succ] at this
          rw [← this]
          exact congrArg (fun n => u.quads[n]?) (by omega))]
        refine congrArg Outcome.ok ?_
        funext px py
        rw [List.foldl_cons]
        refine congrArg (fun z => List.foldl (add dev.store px py) z bs) ?_
        rw [hd2, hd3, hd4, hd5, List.getD_eq_getElem?_getD, hd6, Option.getD_some, ← hs.2.1, List.take_length]
        exact hs.2.2.2 pic px py

theorem pow_ok {n : Nat} (h : 1 ≤ n) (h' : n ≤ 2 ^ 20) : n ≤ nextPow2 n ∧ nextPow2 n ≤ 2 ^ 20 := by
  unfold nextPow2
  by_cases h1 : n ≤ 1
  · rw [if_pos h1]
    omega
  · rw [if_neg h1]
    have a : n - 1 < 2 ^ (Nat.log2 (n - 1) + 1) := Nat.lt_log2_self
    have b : 2 ^ Nat.log2 (n - 1) ≤ n - 1 := Nat.log2_self_le (by omega)
    refine ⟨by omega, ?_⟩
    apply Nat.pow_le_pow_right (by omega)
    apply Nat.succ_le_of_lt
    exact (Nat.pow_lt_pow_iff_right (a := 2) (by omega)).1 (by omega)

/-- The invariant of the compositor. -/
def Inv (g : Gpu) : Prop := g.stride = 256 ∧ HeapOk g.heap

theorem uniforms_keep {dev : Device} {g g' : Gpu} {n : Nat} (h : ensureUniforms dev g n = .ok g') :
    g'.stride = g.stride ∧ g'.heap = g.heap ∧ g'.layer = g.layer ∧ g'.screen = g.screen ∧ g'.target = g.target ∧
      g'.formats = g.formats := by
  have fresh : ∀ c, ensureUniforms.fresh dev g c = .ok g' → g'.stride = g.stride ∧ g'.heap = g.heap ∧ g'.layer = g.layer ∧
      g'.screen = g.screen ∧ g'.target = g.target ∧ g'.formats = g.formats := by
    intro c hc
    unfold ensureUniforms.fresh at hc
    obtain ⟨cap, _, hc⟩ := bind_some hc
    split at hc
    · cases hc
      exact ⟨rfl, rfl, rfl, rfl, rfl, rfl⟩
    · exact nomatch hc
  unfold ensureUniforms at h
  split at h
  · cases h
    exact ⟨rfl, rfl, rfl, rfl, rfl, rfl⟩
  · split at h
    · cases h
      exact ⟨rfl, rfl, rfl, rfl, rfl, rfl⟩
    · exact fresh _ h
  · exact fresh _ h

/-- There is room for a moderate number of quads. -/
theorem uniforms_ok {dev : Device} (hd : Usual dev) {g : Gpu} (hs : g.stride = 256) {n : Nat} (hn : n ≤ 2 ^ 20) :
    ∃ g', ensureUniforms dev g n = .ok g' ∧ (1 ≤ n → ∃ u, g'.uniforms = some u ∧ n ≤ u.capacity) := by
  cases n with
  | zero => exact ⟨g, rfl, fun h => absurd h (by omega)⟩
  | succ n =>
    have fresh : ∃ g', ensureUniforms.fresh dev g (n + 1) = .ok g' ∧ (1 ≤ n + 1 → ∃ u, g'.uniforms = some u ∧ n + 1 ≤ u.capacity) := by
      have hp := pow_ok (show 1 ≤ n + 1 by omega) hn
      unfold ensureUniforms.fresh
      rw [bind_of (show u32 (nextPow2 (n + 1)) = .ok (nextPow2 (n + 1)) by unfold u32; rw [if_pos (by omega)]),
        if_pos (by rw [hs, hd.2.1]; omega)]
      exact ⟨_, rfl, fun _ => ⟨_, rfl, hp.1⟩⟩
    unfold ensureUniforms
    cases hu : g.uniforms with
    | none => exact fresh
    | some u =>
      dsimp only
      by_cases hc : n + 1 ≤ u.capacity
      · rw [if_pos hc]
        exact ⟨g, rfl, fun _ => ⟨u, hu, hc⟩⟩
      · rw [if_neg hc]
        exact fresh

theorem write_keep {g g' : Gpu} {qs : List Quad} (h : writeUniforms g qs = .ok g') :
    g'.stride = g.stride ∧ g'.heap = g.heap ∧ g'.layer = g.layer ∧ g'.screen = g.screen ∧ g'.target = g.target ∧
      g'.formats = g.formats := by
  unfold writeUniforms at h
  split at h
  · cases h
    exact ⟨rfl, rfl, rfl, rfl, rfl, rfl⟩
  · split at h
    · cases h
      exact ⟨rfl, rfl, rfl, rfl, rfl, rfl⟩
    · obtain ⟨u, _, h⟩ := bind_some h
      cases h
      exact ⟨rfl, rfl, rfl, rfl, rfl, rfl⟩

theorem heap_released {hp hp' : Heap} {ts : List Tile} (h1 : (ts.map Tile.id ++ hp'.free.map Tile.id).Nodup)
    (h2 : ∀ t ∈ ts, t.id < hp'.textures.length) (h3 : ∀ s ∈ hp'.free, s ∈ hp.free) (h4 : hp.textures.length ≤ hp'.textures.length)
    (hok : HeapOk hp) : HeapOk hp' ∧ HeapOk (release hp' ts) := by
  refine ⟨⟨(List.nodup_append.1 h1).2.1, fun t ht => Nat.lt_of_lt_of_le (hok.2 t (h3 t ht)) h4⟩, ?_, ?_⟩
  · show ((ts.reverse ++ hp'.free).map Tile.id).Nodup
    rw [List.map_append, List.map_reverse]
    exact (((List.reverse_perm (ts.map Tile.id)).append_right _).nodup_iff).2 h1
  · intro t ht
    rcases List.mem_append.1 ht with h | h
    · exact h2 t (List.mem_reverse.1 h)
    · exact Nat.lt_of_lt_of_le (hok.2 t (h3 t h)) h4

/-- Preparing tiles keeps the invariant and the rest. -/
theorem tiles_keep {dev : Device} {g g' : Gpu} {bs : List Bitmap} {fw fh : Nat} {ts : List Tile} (hi : Inv g)
    (h : prepareTiles dev g bs fw fh = .ok (ts, g')) :
    Inv g' ∧ HeapOk (release g'.heap ts) ∧ g'.layer = g.layer ∧ g'.screen = g.screen ∧ g'.target = g.target ∧ g'.formats = g.formats := by
  unfold prepareTiles at h
  obtain ⟨g1, h1, h⟩ := bind_some h
  obtain ⟨⟨ts', qs, hp⟩, h2, h⟩ := bind_some h
  obtain ⟨g2, h3, h⟩ := bind_some h
  cases h
  have k1 := uniforms_keep h1
  have k3 := write_keep h3
  dsimp only at k3
  rw [k1.2.1] at h2
  obtain ⟨b1, b2, b3, b4, _⟩ := prepare_spec hi.2 h2
  have hr := heap_released b1 b2 b3 b4 hi.2
  refine ⟨⟨by rw [k3.1, k1.1]; exact hi.1, by rw [k3.2.1]; exact hr.1⟩, by rw [k3.2.1]; exact hr.2, ?_, ?_, ?_, ?_⟩
  · rw [k3.2.2.1, k1.2.2.1]
  · rw [k3.2.2.2.1, k1.2.2.2.1]
  · rw [k3.2.2.2.2.1, k1.2.2.2.2.1]
  · rw [k3.2.2.2.2.2, k1.2.2.2.2.2]

theorem loaded_length {f : Rat → Rat} {fw fh : Nat} {textures : List (List Nat)} : ∀ {bs : List Bitmap} {ts : List Tile} {qs : List Quad},
    Loaded f fw fh textures bs ts qs → qs.length = bs.length ∧ ts.length = bs.length
  | [], [], [], _ => ⟨rfl, rfl⟩
  | _ :: _, _ :: _, _ :: _, h => ⟨congrArg (· + 1) (loaded_length h.2).1, congrArg (· + 1) (loaded_length h.2).2⟩
  | [], [], _ :: _, h => h.elim
  | [], _ :: _, [], h => h.elim
  | [], _ :: _, _ :: _, h => h.elim
  | _ :: _, [], [], h => h.elim
  | _ :: _, [], _ :: _, h => h.elim
  | _ :: _, _ :: _, [], h => h.elim

/-- What is drawn of fitting bitmaps. -/
theorem tiles_draw {dev : Device} (hd : Usual dev) (hf : Faithful dev.f32) {g : Gpu} (hi : Inv g) {bs : List Bitmap} {fw fh : Nat}
    (ht : Size fw fh) (hb : ∀ b ∈ bs, Fitting b) (hn : bs.length ≤ 2 ^ 20) :
    ∃ ts g', prepareTiles dev g bs fw fh = .ok (ts, g') ∧ drawPass dev g' ts fw fh = .ok (picture dev.store bs) := by
  unfold prepareTiles
  rw [show min bs.length 4294967295 = bs.length by omega]
  obtain ⟨g1, h1, hu⟩ := uniforms_ok hd hi.1 hn
  have k1 := uniforms_keep h1
  rw [bind_of h1, k1.2.1]
  obtain ⟨⟨ts, qs, hp⟩, h2⟩ := prepare_ok hd hf ht (hp := g.heap) hb
  rw [bind_of h2]
  obtain ⟨_, _, _, _, _, _, hl⟩ := prepare_spec hi.2 h2
  have hlen := loaded_length hl
  dsimp only
  by_cases h0 : bs = []
  · subst h0
    have e1 : qs = [] := List.length_eq_zero_iff.1 hlen.1
    have e2 : ts = [] := List.length_eq_zero_iff.1 hlen.2
    subst e1 e2
    unfold writeUniforms
    dsimp only
    cases hg : g1.uniforms with
    | none =>
      refine ⟨[], _, rfl, ?_⟩
      unfold drawPass
      dsimp only
      rfl
    | some u =>
      refine ⟨[], _, rfl, ?_⟩
      unfold drawPass
      dsimp only
      rfl
  · have hpos : 1 ≤ bs.length := List.length_pos_iff.2 h0
    obtain ⟨u, hgu, hcap⟩ := hu hpos
    have hne : qs ≠ [] := by
      intro h
      rw [h] at hlen
      have : (0 : Nat) = bs.length := hlen.1
      omega
    have hw : writeUniforms { g1 with heap := hp } qs =
        .ok { g1 with heap := hp, uniforms := some ⟨u.capacity, qs ++ u.quads.drop qs.length⟩ } := by
      unfold writeUniforms writeQuads
      dsimp only
      rw [hgu]
      dsimp only
      rw [if_neg hne, if_pos (by omega)]
      rfl
    rw [bind_of hw]
    refine ⟨ts, _, rfl, ?_⟩
    unfold drawPass
    dsimp only
    rw [k1.1, hi.1]
    have := draw_spec hd hf ht (u := ⟨u.capacity, qs ++ u.quads.drop qs.length⟩) (k := 0) (pic := clear ⟨0, 0, 0, 0⟩) hb hl
      (show 0 + bs.length ≤ u.capacity by omega) (by omega) (by
        intro i hi
        rw [Nat.zero_add]
        exact List.getElem?_append_left hi)
    rw [Nat.zero_mul] at this
    rw [this]
    rfl

/-! ## Reading back -/

theorem row_length (pixels : Nat → Nat → Px) (w y : Nat) : (rowBytes pixels w y).length = w * 4 := by
  unfold rowBytes
  rw [List.length_flatMap]
  simp only [List.length_cons, List.length_nil]
  induction w with
  | zero => rfl
  | succ w ih =>
    rw [List.range_succ, List.map_append, List.sum_append_nat, ih]
    simp only [List.map_cons, List.map_nil, List.sum_cons, List.sum_nil]
    omega

theorem slice_block {P : Nat → List Nat} {n : Nat} (hP : ∀ y, (P y).length = n) {h y row : Nat} (hy : y < h) (hr : row ≤ n) :
    slice ((List.range h).flatMap P) (y * n) row = .ok ((P y).take row) := by
  have hsplit : (List.range h).flatMap P = (List.range y).flatMap P ++ (P y ++ ((List.range h).drop (y + 1)).flatMap P) := by
    have e : List.range h = List.range y ++ y :: (List.range h).drop (y + 1) := by
      have h1 : (List.range h).take y = List.range y := by
        rw [List.take_range, Nat.min_eq_left (by omega)]
      have h2 : (List.range h).drop y = y :: (List.range h).drop (y + 1) := by
        rw [List.drop_eq_getElem_cons (by rw [List.length_range]; exact hy), List.getElem_range]
      rw [← h2, ← h1, List.take_append_drop]
    conv => lhs; rw [e]
    rw [List.flatMap_append, List.flatMap_cons]
  have hlen : ∀ k, ((List.range k).flatMap P).length = k * n := by
    intro k
    induction k with
    | zero => simp
    | succ k ih =>
      rw [List.range_succ, List.flatMap_append, List.length_append, ih, List.flatMap_cons, List.flatMap_nil, List.append_nil, hP,
        Nat.succ_mul]
  unfold slice
  have hle : y * n + n ≤ h * n := by
    have := Nat.mul_le_mul_right n (show y + 1 ≤ h from hy)
    rwa [Nat.succ_mul] at this
  rw [if_pos (by rw [hlen]; omega), hsplit, List.drop_append_of_le_length (by rw [hlen]; exact Nat.le_refl _),
    List.drop_eq_nil_of_le (by rw [hlen]; exact Nat.le_refl _), List.nil_append,
    List.take_append_of_le_length (by rw [hP]; exact hr)]

theorem read_rows {P : Nat → List Nat} {n h row : Nat} (hP : ∀ y, (P y).length = n) (hr : row ≤ n) : ∀ {k y : Nat}, y + k = h →
    readRows ((List.range h).flatMap P) n row k y = .ok ((List.range' y k).flatMap fun y => (P y).take row) := by
  intro k
  induction k with
  | zero => intro y _; rfl
  | succ k ih =>
    intro y hy
    rw [readRows, bind_of (slice_block hP (by omega) hr), bind_of (ih (by omega)), List.range'_succ, List.flatMap_cons]

theorem row_ok {dev : Device} (hd : Usual dev) {w h : Nat} (hs : Size w h) :
    ∃ n, readbackRow dev w h = .ok n ∧ w * 4 ≤ n := by
  obtain ⟨s1, s2, s3, s4⟩ := hs
  unfold readbackRow roundUp
  rw [bind_of (show u32 (w * 4) = .ok (w * 4) by unfold u32; rw [if_pos (by omega)])]
  have hn : (w * 4 + 256 - 1) / 256 * 256 ≤ 32768 := by omega
  have hm : (w * 4 + 256 - 1) / 256 * 256 * h ≤ 32768 * 8192 := Nat.mul_le_mul hn s4
  rw [bind_of (show u32 ((w * 4 + 256 - 1) / 256 * 256) = .ok ((w * 4 + 256 - 1) / 256 * 256) by
    unfold u32
    rw [if_pos (by omega)]), if_pos (by rw [hd.2.1]; omega)]
  exact ⟨_, rfl, by omega⟩

/-- The bytes read are the rows of the picture without padding. -/
theorem read_spec {dev : Device} (hd : Usual dev) {s : Surface} (hs : Size s.w s.h) :
    readBack dev s true = .ok (some (bytes s.w s.h s.pixels)) := by
  obtain ⟨n, hn, hle⟩ := row_ok hd hs
  unfold readBack
  rw [bind_of hn, if_pos rfl]
  unfold copyFrom
  have hP : ∀ y, (rowBytes s.pixels s.w y ++ (List.range (n - s.w * 4)).map (dev.padding y)).length = n := by
    intro y
    rw [List.length_append, row_length, List.length_map, List.length_range]
    omega
  rw [bind_of (read_rows hP hle (k := s.h) (y := 0) (by omega))]
  unfold bytes
  refine congrArg (fun z => Outcome.ok (some z)) ?_
  rw [← List.range_eq_range']
  congr 1
  funext y
  rw [List.take_append_of_le_length (by rw [row_length]; exact Nat.le_refl _), List.take_of_length_le (by rw [row_length]; exact Nat.le_refl _)]
  rfl

theorem read_none {dev : Device} (hd : Usual dev) {s : Surface} (hs : Size s.w s.h) : readBack dev s false = .ok none := by
  obtain ⟨n, hn, hle⟩ := row_ok hd hs
  unfold readBack
  rw [bind_of hn]
  rfl

theorem surface_ok {dev : Device} (hd : Usual dev) {w h : Nat} (hs : Size w h) : makeSurface dev w h = .ok () := by
  obtain ⟨n, hn, _⟩ := row_ok hd hs
  obtain ⟨s1, s2, s3, s4⟩ := hs
  unfold makeSurface sideOk
  rw [if_pos (decide_eq_true ⟨s1, s2, by rw [hd.1]; exact s3, by rw [hd.1]; exact s4⟩), bind_of hn]

end Verif.Gpu
