import Verif.Model.Raster
import Verif.Spec.Raster
/-!
# Lemmas on areas, accumulation and curves
-/
namespace Verif.Raster
open Verif
open Verif.Spec.Raster
open Verif.Blend (bind)

/-! ## Areas -/

theorem cancel {a x y : Rat} (h0 : a ≠ 0) (h : a * x = a * y) : x = y := by
  have : a * (x - y) = 0 := by grind
  rcases Rat.mul_eq_zero.1 this with h | h
  · exact absurd h h0
  · grind

/-- How far a line at distance `u` left of a pixel's right side covers the pixel. -/
def ramp (u : Rat) : Rat := max 0 (min u 1)

/-- Its integral. -/
def rampSum (u : Rat) : Rat := if u ≤ 0 then 0 else if u ≤ 1 then u * u / 2 else u - 1 / 2

/-- The mean cover of a line. -/
def mean (c x0 x1 : Rat) : Rat := if x0 = x1 then ramp (c + 1 - x0) else (rampSum (c + 1 - x0) - rampSum (c + 1 - x1)) / (x1 - x0)

theorem mean_mul (c x0 x1 : Rat) : (x1 - x0) * mean c x0 x1 = rampSum (c + 1 - x0) - rampSum (c + 1 - x1) := by
  unfold mean
  split
  · rename_i h
    subst h
    grind
  · rename_i h
    have : x1 - x0 ≠ 0 := by grind
    rw [Rat.div_def, ← Rat.mul_assoc, Rat.mul_comm (x1 - x0), Rat.mul_assoc, Rat.mul_inv_cancel _ this, Rat.mul_one]

theorem area_mean {c x0 x1 h v : Rat} (ha : Area c x0 x1 h v) : v = h * mean c x0 x1 := by
  induction ha with
  | @right x0 x1 h h0 h1 =>
    have : mean c x0 x1 = 0 := by
      unfold mean
      split
      · unfold ramp; grind
      · unfold rampSum
        rw [if_pos (by grind), if_pos (by grind)]
        grind
    rw [this]
    grind
  | @left x0 x1 h h0 h1 =>
    have : mean c x0 x1 = 1 := by
      by_cases hx : x0 = x1
      · unfold mean
        rw [if_pos hx]
        unfold ramp
        grind
      · refine cancel (a := x1 - x0) (by grind) ?_
        rw [mean_mul]
        unfold rampSum
        grind
    rw [this]
    grind
  | @inside x0 x1 h h0 h1 h2 h3 =>
    have : mean c x0 x1 = ((c + 1 - x0) + (c + 1 - x1)) / 2 := by
      by_cases hx : x0 = x1
      · unfold mean
        rw [if_pos hx]
        unfold ramp
        grind
      · refine cancel (a := x1 - x0) (by grind) ?_
        rw [mean_mul]
        have sq : ∀ u : Rat, 0 ≤ u → u ≤ 1 → rampSum u = u * u / 2 := by
          intro u a b
          unfold rampSum
          by_cases hu : u ≤ 0
          · rw [if_pos hu]
            have : u = 0 := by grind
            subst this
            grind
          · rw [if_neg hu, if_pos b]
        rw [sq _ (by grind) (by grind), sq _ (by grind) (by grind)]
        grind
    rw [this]
    grind
  | @split x0 x1 h t v w h0 h1 _ _ ih1 ih2 =>
    rw [ih1, ih2]
    by_cases hx : x0 = x1
    · subst hx
      rw [show x0 + t * (x0 - x0) = x0 by grind]
      grind
    · have e1 := mean_mul c x0 (x0 + t * (x1 - x0))
      have e2 := mean_mul c (x0 + t * (x1 - x0)) x1
      have e3 := mean_mul c x0 x1
      have : t * mean c x0 (x0 + t * (x1 - x0)) + (1 - t) * mean c (x0 + t * (x1 - x0)) x1 = mean c x0 x1 := by
        refine cancel (a := x1 - x0) (by grind) ?_
        rw [e3]
        grind
      rw [← this]
      grind

theorem area_unique {c x0 x1 h v w : Rat} (h1 : Area c x0 x1 h v) (h2 : Area c x0 x1 h w) : v = w := by
  rw [area_mean h1, area_mean h2]

theorem area_cast {c x0 x1 h v x0' x1' h' v' : Rat} (ha : Area c x0 x1 h v) (e0 : x0 = x0') (e1 : x1 = x1') (eh : h = h') (ev : v = v') :
    Area c x0' x1' h' v' := by
  subst e0 e1 eh ev
  exact ha

theorem area_swap {c x0 x1 h v : Rat} (ha : Area c x0 x1 h v) : Area c x1 x0 h v := by
  induction ha with
  | right h0 h1 => exact .right h1 h0
  | left h0 h1 => exact .left h1 h0
  | inside h0 h1 h2 h3 => exact area_cast (.inside h2 h3 h0 h1) rfl rfl rfl (by grind)
  | @split x0 x1 h t v w h0 h1 _ _ ih1 ih2 =>
    refine area_cast (.split (1 - t) (v := w) (w := v) (by grind) (by grind) (area_cast ih2 rfl (by grind) rfl rfl)
      (area_cast ih1 (by grind) rfl (by grind) rfl)) rfl rfl rfl (by grind)

theorem area_shift (k : Rat) {c x0 x1 h v : Rat} (ha : Area c x0 x1 h v) : Area (c + k) (x0 + k) (x1 + k) h v := by
  induction ha with
  | right h0 h1 => exact .right (by grind) (by grind)
  | left h0 h1 => exact .left (by grind) (by grind)
  | @inside x0 x1 h h0 h1 h2 h3 => exact area_cast (.inside (by grind) (by grind) (by grind) (by grind)) rfl rfl rfl (by grind)
  | @split x0 x1 h t v w h0 h1 _ _ ih1 ih2 =>
    exact .split t h0 h1 (area_cast ih1 rfl (by grind) rfl rfl) (area_cast ih2 (by grind) rfl rfl rfl)

/-- Nothing without height. -/
theorem area_zero (c x : Rat) : Area c x x 0 0 := by
  by_cases h1 : x ≤ c
  · exact .left h1 h1
  · by_cases h2 : c + 1 ≤ x
    · exact .right h2 h2
    · exact area_cast (.inside (by grind) (by grind) (by grind) (by grind)) rfl rfl rfl (by grind)

theorem area_exists (c : Rat) : ∀ x0 x1 h : Rat, x0 ≤ x1 → ∃ v, Area c x0 x1 h v := by
  have cut : ∀ {x0 x1 h m : Rat}, x0 ≤ m → m ≤ x1 → (∀ h, ∃ v, Area c x0 m h v) → (∀ h, ∃ v, Area c m x1 h v) → ∃ v, Area c x0 x1 h v := by
    intro x0 x1 h m hm1 hm2 ha hb
    by_cases hx : x0 = x1
    · have : m = x0 := by grind
      subst this
      rw [← hx] at *
      exact ha h
    · have hd : x1 - x0 ≠ 0 := by grind
      have hp : 0 < (x1 - x0)⁻¹ := Rat.inv_pos.2 (by grind)
      have hi : (x1 - x0)⁻¹ * (x1 - x0) = 1 := Rat.inv_mul_cancel _ hd
      have e : x0 + (m - x0) * (x1 - x0)⁻¹ * (x1 - x0) = m := by grind
      have p1 : 0 ≤ (m - x0) * (x1 - x0)⁻¹ := Rat.mul_nonneg (by grind) (Rat.le_of_lt hp)
      have p2 : 0 ≤ (x1 - m) * (x1 - x0)⁻¹ := Rat.mul_nonneg (by grind) (Rat.le_of_lt hp)
      obtain ⟨v, hv⟩ := ha ((m - x0) * (x1 - x0)⁻¹ * h)
      obtain ⟨w, hw⟩ := hb ((1 - (m - x0) * (x1 - x0)⁻¹) * h)
      exact ⟨v + w, .split ((m - x0) * (x1 - x0)⁻¹) p1 (by grind) (area_cast hv rfl e.symm rfl rfl) (area_cast hw e.symm rfl rfl rfl)⟩
  have mid : ∀ {x0 x1 : Rat}, c ≤ x0 → x0 ≤ x1 → ∀ h, ∃ v, Area c x0 x1 h v := by
    intro x0 x1 h0 h1 h
    by_cases a : c + 1 ≤ x0
    · exact ⟨_, .right a (by grind)⟩
    · by_cases b : x1 ≤ c + 1
      · exact ⟨_, .inside h0 (by grind) (by grind) b⟩
      · exact cut (m := c + 1) (by grind) (by grind) (fun h => ⟨_, .inside h0 (by grind) (by grind) (by grind)⟩)
          (fun h => ⟨_, .right (by grind) (by grind)⟩)
  intro x0 x1 h hx
  by_cases a : c ≤ x0
  · exact mid a hx h
  · by_cases b : x1 ≤ c
    · exact ⟨_, .left (by grind) b⟩
    · exact cut (m := c) (by grind) (by grind) (fun h => ⟨_, .left (by grind) (by grind)⟩) (mid (by grind) (by grind))

theorem areas_unique {c r : Rat} {es : List Edge} {v w : Rat} (h1 : Areas c r es v) (h2 : Areas c r es w) : v = w := by
  induction h1 generalizing w with
  | nil =>
    cases h2
    rfl
  | cons h _ ih =>
    cases h2 with
    | cons h' h2' => rw [area_unique h h', ih h2']

theorem areas_append {c r : Rat} {es fs : List Edge} {v w : Rat} (h1 : Areas c r es v) (h2 : Areas c r fs w) : Areas c r (es ++ fs) (v + w) := by
  induction h1 with
  | nil =>
    rw [List.nil_append, Rat.zero_add]
    exact h2
  | @cons e es a b h _ ih =>
    rw [List.cons_append, show a + b + w = a + (b + w) by grind]
    exact .cons h ih


/-! ## One row of an edge -/

/-- What is added to the columns up to `c`. -/
def upto (c : Nat) : List (Nat × Rat) → Rat
  | [] => 0
  | (i, v) :: ps => (if i ≤ c then v else 0) + upto c ps

theorem upto_append (c : Nat) (ps qs : List (Nat × Rat)) : upto c (ps ++ qs) = upto c ps + upto c qs := by
  induction ps with
  | nil => rw [List.nil_append, upto, Rat.zero_add]
  | cons p ps ih =>
    obtain ⟨i, v⟩ := p
    rw [List.cons_append, upto, upto, ih]
    grind

theorem upto_none {c : Nat} {ps : List (Nat × Rat)} (h : ∀ p ∈ ps, c < p.1) : upto c ps = 0 := by
  induction ps with
  | nil => rfl
  | cons p ps ih =>
    obtain ⟨i, v⟩ := p
    have h1 : c < i := h (i, v) List.mem_cons_self
    rw [upto, if_neg (by omega), ih (fun q hq => h q (List.mem_cons_of_mem _ hq)), Rat.zero_add]

theorem upto_run (c b : Nat) (v : Rat) (m : Nat) : upto c ((List.range m).map fun k => (b + k, v)) = ((min m (c + 1 - b) : Nat) : Rat) * v := by
  induction m with
  | zero =>
    rw [Nat.zero_min]
    show (0 : Rat) = 0 * v
    grind
  | succ m ih =>
    rw [List.range_succ, List.map_append, upto_append, ih]
    show _ + ((if b + m ≤ c then v else 0) + 0) = _
    by_cases h : b + m ≤ c
    · rw [if_pos h, Nat.min_eq_left (by omega), Nat.min_eq_left (by omega), Rat.natCast_add]
      show _ = ((m : Rat) + 1) * v
      grind
    · rw [if_neg h, Nat.min_eq_right (by omega), Nat.min_eq_right (by omega)]
      grind

theorem cast_lt {m n : Nat} (h : m < n) : (m : Rat) + 1 ≤ n := by
  have := Rat.natCast_le_natCast.2 (show m + 1 ≤ n from h)
  rw [Rat.natCast_add] at this
  exact this

theorem spread_area {xa xb d : Rat} {n0 n1 : Nat} (h0 : (n0 : Rat) ≤ xa) (h1 : xa < n0 + 1) (h2 : (n1 : Rat) - 1 < xb) (h3 : xb ≤ n1)
    (hn : n0 + 2 ≤ n1) (c : Nat) : Area c xa xb d (upto c (spread xa xb d n0 n1)) := by
  have hn' : (n0 : Rat) + 2 ≤ n1 := by
    have := Rat.natCast_le_natCast.2 hn
    rw [Rat.natCast_add] at this
    exact this
  have hd : 0 < xb - xa := by grind
  have hp : 0 < (xb - xa)⁻¹ := Rat.inv_pos.2 hd
  have hs : (xb - xa)⁻¹ * (xb - xa) = 1 := Rat.inv_mul_cancel _ (by grind)
  have hs1 : 1 / (xb - xa) = (xb - xa)⁻¹ := by rw [Rat.div_def, Rat.one_mul]
  unfold spread
  rw [hs1]
  dsimp only
  generalize (xb - xa)⁻¹ = s at *
  have q1 : 0 ≤ s * (n0 + 1 - xa) := Rat.mul_nonneg (Rat.le_of_lt hp) (by grind)
  have q2 : 0 ≤ s * (xb - (n0 + 1)) := Rat.mul_nonneg (Rat.le_of_lt hp) (by grind)
  rw [upto, upto_append]
  by_cases c0 : c < n0
  · have := cast_lt c0
    rw [if_neg (by omega), upto_none (ps := [(n1, _)]) (by simp only [List.mem_singleton, forall_eq]; omega)]
    rw [upto_none (c := c) (by
      intro p hp
      split at hp
      · rw [List.mem_singleton] at hp
        subst hp
        show c < n0 + 1
        omega
      · simp only [List.cons_append, List.mem_cons, List.mem_append, List.mem_map, List.mem_range, List.not_mem_nil, or_false] at hp
        rcases hp with rfl | ⟨k, _, rfl⟩ | rfl
        · show c < n0 + 1; omega
        · show c < n0 + 2 + k; omega
        · show c < n1 - 1; omega)]
    exact area_cast (.right (by grind) (by grind)) rfl rfl rfl (by grind)
  · rw [if_pos (by omega)]
    by_cases c1 : n1 ≤ c
    · -- all of it
      have := Rat.natCast_le_natCast.2 c1
      refine area_cast (.left (by grind) (by grind)) rfl rfl rfl ?_
      have l1 : upto c [(n1, d * (1 / 2 * s * (xb - ↑n1 + 1) * (xb - ↑n1 + 1)))] = d * (1 / 2 * s * (xb - ↑n1 + 1) * (xb - ↑n1 + 1)) := by
        rw [upto, if_pos (by omega), upto]
        grind
      rw [l1]
      split
      · rw [upto, if_pos (by omega), upto]
        grind
      · rw [List.cons_append, upto, if_pos (by omega), upto_append, upto_run, Nat.min_eq_left (by omega), upto, if_pos (by omega), upto]
        have : ((n1 - n0 : Nat) : Rat) = ((n1 - 1 - (n0 + 2) : Nat) : Rat) + 3 := by
          rw [show n1 - n0 = n1 - 1 - (n0 + 2) + 3 by omega, Rat.natCast_add]
          rfl
        rw [this]
        grind
    · have l1 : upto c [(n1, d * (1 / 2 * s * (xb - ↑n1 + 1) * (xb - ↑n1 + 1)))] = 0 := by
        rw [upto, if_neg (by omega), upto]
        grind
      rw [l1]
      by_cases c2 : c = n0
      · subst c2
        have l2 : upto c (if n1 = c + 2 then
            [(c + 1, d * (1 - 1 / 2 * s * (1 - (xa - ↑c)) * (1 - (xa - ↑c)) - 1 / 2 * s * (xb - ↑n1 + 1) * (xb - ↑n1 + 1)))]
          else
            (c + 1, d * (s * (3 / 2 - (xa - ↑c)) - 1 / 2 * s * (1 - (xa - ↑c)) * (1 - (xa - ↑c)))) ::
                List.map (fun k => (c + 2 + k, d * s)) (List.range (n1 - 1 - (c + 2))) ++
              [(n1 - 1, d * (1 - (s * (3 / 2 - (xa - ↑c)) + (↑(n1 - c) - 3) * s) - 1 / 2 * s * (xb - ↑n1 + 1) * (xb - ↑n1 + 1)))]) = 0 := by
          apply upto_none
          intro p hp
          split at hp
          · rw [List.mem_singleton] at hp
            subst hp
            show c < c + 1
            omega
          · simp only [List.cons_append, List.mem_cons, List.mem_append, List.mem_map, List.mem_range, List.not_mem_nil, or_false] at hp
            rcases hp with rfl | ⟨k, _, rfl⟩ | rfl
            · show c < c + 1; omega
            · show c < c + 2 + k; omega
            · show c < n1 - 1; omega
        rw [l2]
        have e : xa + s * (c + 1 - xa) * (xb - xa) = c + 1 := by grind
        refine area_cast (.split (s * (c + 1 - xa)) q1 (by grind)
          (area_cast (.inside (x0 := xa) (x1 := c + 1) (by grind) (by grind) (by grind) (by grind)) rfl e.symm rfl rfl)
          (area_cast (.right (x0 := c + 1) (x1 := xb) (by grind) (by grind)) e.symm rfl rfl rfl)) rfl rfl rfl ?_
        grind
      · have hc : (n0 : Rat) + 1 ≤ c := cast_lt (by omega)
        have hc' : (c : Rat) + 1 ≤ n1 := cast_lt (by omega)
        have q3 : 0 ≤ s * (c - xa) := Rat.mul_nonneg (Rat.le_of_lt hp) (by grind)
        have q4 : 0 ≤ s * (xb - c) := Rat.mul_nonneg (Rat.le_of_lt hp) (by grind)
        have e : xa + s * (c - xa) * (xb - xa) = c := by grind
        by_cases c3 : c + 1 = n1
        · have hc3 : (n1 : Rat) = c + 1 := by
            rw [← c3, Rat.natCast_add]
            rfl
          refine area_cast (.split (s * (c - xa)) q3 (by grind)
            (area_cast (.left (x0 := xa) (x1 := c) (by grind) (by grind)) rfl e.symm rfl rfl)
            (area_cast (.inside (x0 := c) (x1 := xb) (by grind) (by grind) (by grind) (by grind)) e.symm rfl rfl rfl)) rfl rfl rfl ?_
          split
          · rw [upto, if_pos (by omega), upto, hc3]
            grind
          · rw [List.cons_append, upto, if_pos (by omega), upto_append, upto_run, Nat.min_eq_left (by omega), upto, if_pos (by omega), upto]
            have : ((n1 - n0 : Nat) : Rat) = ((n1 - 1 - (n0 + 2) : Nat) : Rat) + 3 := by
              rw [show n1 - n0 = n1 - 1 - (n0 + 2) + 3 by omega, Rat.natCast_add]
              rfl
            rw [this, hc3]
            grind
        · have hc4 : (c : Rat) + 2 ≤ n1 := by
            have := Rat.natCast_le_natCast.2 (show c + 2 ≤ n1 by omega)
            rw [Rat.natCast_add] at this
            exact this
          have hb : 0 < xb - c := by grind
          have hbp : 0 < (xb - c)⁻¹ := Rat.inv_pos.2 hb
          have hbs : (xb - c)⁻¹ * (xb - c) = 1 := Rat.inv_mul_cancel _ (by grind)
          have q5 : 0 ≤ (xb - c)⁻¹ * (xb - (c + 1)) := Rat.mul_nonneg (Rat.le_of_lt hbp) (by grind)
          generalize (xb - (c : Rat))⁻¹ = u at *
          have e2 : (c : Rat) + u * (xb - c) = c + 1 := by grind
          refine area_cast (.split (s * (c - xa)) q3 (by grind)
            (area_cast (.left (x0 := xa) (x1 := c) (by grind) (by grind)) rfl e.symm rfl rfl)
            (area_cast (.split (x0 := c) (x1 := xb) u (Rat.le_of_lt hbp) (by grind)
              (area_cast (.inside (x0 := c) (x1 := c + 1) (by grind) (by grind) (by grind) (by grind)) rfl e2.symm rfl rfl)
              (area_cast (.right (x0 := c + 1) (x1 := xb) (by grind) (by grind)) e2.symm rfl rfl rfl)) e.symm rfl rfl rfl)) rfl rfl rfl ?_
          rw [if_neg (by omega)]
          rw [List.cons_append, upto, if_pos (by omega), upto_append, upto_run, Nat.min_eq_right (by omega), upto, if_neg (by omega), upto]
          have : ((c + 1 - (n0 + 2) : Nat) : Rat) = (c : Rat) - n0 - 1 := by
            have : ((c + 1 - (n0 + 2) : Nat) : Rat) + n0 + 1 = c := by
              rw [← Rat.natCast_add]
              show ((c + 1 - (n0 + 2) + n0 : Nat) : Rat) + ((1 : Nat) : Rat) = c
              rw [← Rat.natCast_add, show c + 1 - (n0 + 2) + n0 + 1 = c by omega]
            grind
          rw [this]
          have e3 : u * ((1 - s * (c - xa)) * d) = s * d := by
            have : u * (1 - s * (c - xa)) = s := by grind
            grind
          rw [e3]
          grind


theorem clamp_bounds {x w : Rat} (hw : 0 ≤ w) : 0 ≤ clamp x w ∧ clamp x w ≤ w := by
  unfold clamp
  grind

theorem clamp_id {x w : Rat} (h0 : 0 ≤ x) (h1 : x ≤ w) : clamp x w = x := by
  unfold clamp
  grind

theorem floor_nat {x : Rat} (h : 0 ≤ x) : ((x.floor.toNat : Nat) : Rat) ≤ x ∧ x < ((x.floor.toNat : Nat) : Rat) + 1 := by
  have f0 : 0 ≤ x.floor := Rat.le_floor_iff.2 h
  have e : ((x.floor.toNat : Nat) : Rat) = (x.floor : Rat) := by rw [← Rat.intCast_natCast, Int.toNat_of_nonneg f0]
  rw [e]
  have h2 := Rat.lt_floor_add_one x
  rw [Rat.intCast_add] at h2
  exact ⟨Rat.floor_le x, h2⟩

theorem ceil_nat {x : Rat} (h : 0 ≤ x) : ((x.ceil.toNat : Nat) : Rat) - 1 < x ∧ x ≤ ((x.ceil.toNat : Nat) : Rat) := by
  have h1 := Rat.le_ceil (x := x)
  have f0 : 0 ≤ x.ceil := by
    have : (0 : Rat) ≤ (x.ceil : Rat) := Rat.le_trans h h1
    exact Rat.intCast_le_intCast.1 this
  have e : ((x.ceil.toNat : Nat) : Rat) = (x.ceil : Rat) := by rw [← Rat.intCast_natCast, Int.toNat_of_nonneg f0]
  rw [e]
  have h2 := Rat.ceil_lt (x := x)
  constructor <;> grind

/-- The additions of one row. -/
theorem deposits_spec (x xn d : Rat) (w : Nat) :
    (deposits x xn d w).1 ≤ w ∧ (deposits x xn d w).2.1 ≤ w ∧
    (∀ p ∈ (deposits x xn d w).2.2, (deposits x xn d w).1 ≤ p.1 ∧ p.1 ≤ max (deposits x xn d w).2.1 ((deposits x xn d w).1 + 1)) ∧
    ∀ c : Nat, Area c (clamp x w) (clamp xn w) d (upto c (deposits x xn d w).2.2) := by
  have hw : (0 : Rat) ≤ w := Rat.natCast_nonneg
  obtain ⟨a0, a1⟩ := clamp_bounds (x := x) hw
  obtain ⟨b0, b1⟩ := clamp_bounds (x := xn) hw
  unfold deposits
  dsimp only
  generalize clamp x w = X at *
  generalize clamp xn w = Y at *
  have hab : ∃ xa xb, (if X < Y then X else Y) = xa ∧ (if X < Y then Y else X) = xb ∧ 0 ≤ xa ∧ xa ≤ xb ∧ xb ≤ w ∧
      X + Y = xa + xb ∧ (xa = X ∧ xb = Y ∨ xa = Y ∧ xb = X) := by
    by_cases h : X < Y
    · exact ⟨X, Y, if_pos h, if_pos h, a0, by grind, b1, rfl, .inl ⟨rfl, rfl⟩⟩
    · exact ⟨Y, X, if_neg h, if_neg h, b0, by grind, a1, by grind, .inr ⟨rfl, rfl⟩⟩
  obtain ⟨xa, xb, e1, e2, h0, h1, h2, h3, h4⟩ := hab
  rw [e1, e2, h3]
  obtain ⟨f1, f2⟩ := floor_nat h0
  obtain ⟨g1, g2⟩ := ceil_nat (Rat.le_trans h0 h1)
  generalize xa.floor.toNat = n0 at *
  generalize xb.ceil.toNat = n1 at *
  have k0 : n0 ≤ w := by
    have : (n0 : Rat) ≤ w := by grind
    exact Rat.natCast_le_natCast.1 this
  have k1 : n1 ≤ w := by
    have : (n1 : Rat) < (w : Rat) + 1 := by grind
    have : n1 < w + 1 := by
      have h : (n1 : Rat) < ((w + 1 : Nat) : Rat) := by
        rw [Rat.natCast_add]
        exact this
      exact Rat.natCast_lt_natCast.1 h
    omega
  have both : ∀ {c : Nat} {v : Rat}, Area c xa xb d v → Area c X Y d v := by
    intro c v h
    rcases h4 with ⟨rfl, rfl⟩ | ⟨rfl, rfl⟩
    · exact h
    · exact area_swap h
  by_cases hn : n1 ≤ n0 + 1
  · rw [if_pos hn]
    refine ⟨k0, k1, ?_, ?_⟩
    · intro p hp
      simp only [List.mem_cons, List.not_mem_nil, or_false] at hp
      rcases hp with rfl | rfl
      · show n0 ≤ n0 ∧ n0 ≤ max n1 (n0 + 1)
        omega
      · show n0 ≤ n0 + 1 ∧ n0 + 1 ≤ max n1 (n0 + 1)
        omega
    · intro c
      apply both
      have hn' : (n1 : Rat) ≤ n0 + 1 := by
        have := Rat.natCast_le_natCast.2 hn
        rw [Rat.natCast_add] at this
        exact this
      show Area c xa xb d ((if n0 ≤ c then _ else 0) + ((if n0 + 1 ≤ c then _ else 0) + 0))
      by_cases c0 : c < n0
      · have := cast_lt c0
        rw [if_neg (by omega), if_neg (by omega)]
        exact area_cast (.right (by grind) (by grind)) rfl rfl rfl (by grind)
      · rw [if_pos (by omega)]
        by_cases c1 : n0 + 1 ≤ c
        · have : (n0 : Rat) + 1 ≤ c := cast_lt c1
          rw [if_pos c1]
          exact area_cast (.left (by grind) (by grind)) rfl rfl rfl (by grind)
        · have : c = n0 := by omega
          subst this
          rw [if_neg (by omega)]
          exact area_cast (.inside (by grind) (by grind) (by grind) (by grind)) rfl rfl rfl (by grind)
  · rw [if_neg hn]
    refine ⟨k0, k1, ?_, fun c => both (spread_area f1 f2 g1 g2 (by omega) c)⟩
    intro p hp
    show n0 ≤ p.1 ∧ p.1 ≤ max n1 (n0 + 1)
    unfold spread at hp
    dsimp only at hp
    rw [List.mem_cons, List.mem_append, List.mem_singleton] at hp
    rcases hp with rfl | hp | rfl
    · dsimp only; omega
    · split at hp
      · rw [List.mem_singleton] at hp
        subst hp
        dsimp only
        omega
      · simp only [List.cons_append, List.mem_cons, List.mem_append, List.mem_map, List.mem_range, List.not_mem_nil, or_false] at hp
        rcases hp with rfl | ⟨k, _, rfl⟩ | rfl <;> (dsimp only; omega)
    · dsimp only; omega

/-! ## Accumulation -/

/-- The sum of the first `n` values. -/
def pre (f : Nat → Rat) : Nat → Rat
  | 0 => 0
  | n + 1 => pre f n + f n

theorem pre_congr {f g : Nat → Rat} {n : Nat} (h : ∀ k, k < n → f k = g k) : pre f n = pre g n := by
  induction n with
  | zero => rfl
  | succ n ih => rw [pre, pre, ih (fun k hk => h k (by omega)), h n (by omega)]

/-- The cell of a row. -/
def cell (w : Nat) (acc : List Rat) (y k : Nat) : Rat := acc.getD (y * (w + 2) + k) 0

theorem cell_inj {s y k y' k' : Nat} (h : k < s) (h' : k' < s) (e : y * s + k = y' * s + k') : y = y' ∧ k = k' := by
  have h1 := congrArg (· / s) e
  have h2 := congrArg (· % s) e
  rw [Nat.mul_comm y, Nat.mul_comm y', Nat.mul_add_div (by omega), Nat.mul_add_div (by omega), Nat.div_eq_of_lt h, Nat.div_eq_of_lt h'] at h1
  rw [Nat.mul_comm y, Nat.mul_comm y', Nat.mul_add_mod, Nat.mul_add_mod, Nat.mod_eq_of_lt h, Nat.mod_eq_of_lt h'] at h2
  exact ⟨h1, h2⟩

theorem addAll_spec {w y : Nat} : ∀ {ps : List (Nat × Rat)} {acc : List Rat}, (∀ p ∈ ps, p.1 ≤ w + 1) → (y + 1) * (w + 2) ≤ acc.length →
    ∃ acc', addAll (y * (w + 2)) ps acc = .ok acc' ∧ acc'.length = acc.length ∧
      (∀ y' k, k < w + 2 → (y' ≠ y ∨ ∀ p ∈ ps, p.1 ≠ k) → cell w acc' y' k = cell w acc y' k) ∧
      ∀ c, c < w + 2 → pre (cell w acc' y) (c + 1) = pre (cell w acc y) (c + 1) + upto c ps := by
  intro ps
  induction ps with
  | nil =>
    intro acc _ _
    exact ⟨acc, rfl, rfl, fun _ _ _ _ => rfl, fun c _ => by rw [upto, Rat.add_zero]⟩
  | cons p ps ih =>
    intro acc hps hl
    obtain ⟨i, v⟩ := p
    have hi : i ≤ w + 1 := hps (i, v) List.mem_cons_self
    have hin : y * (w + 2) + i < acc.length := by
      rw [Nat.succ_mul] at hl
      omega
    obtain ⟨acc', a1, a2, a3, a4⟩ := ih (acc := acc.set (y * (w + 2) + i) (acc.getD (y * (w + 2) + i) 0 + v))
      (fun q hq => hps q (List.mem_cons_of_mem _ hq)) (by rw [List.length_set]; exact hl)
    have hset : ∀ y' k, k < w + 2 → cell w (acc.set (y * (w + 2) + i) (acc.getD (y * (w + 2) + i) 0 + v)) y' k =
        if y' = y ∧ k = i then cell w acc y' k + v else cell w acc y' k := by
      intro y' k hk
      unfold cell
      rw [List.getD_eq_getElem?_getD, List.getElem?_set]
      by_cases e : y' = y ∧ k = i
      · rw [if_pos e, e.1, e.2, if_pos rfl, if_pos hin]
        rfl
      · rw [if_neg e, if_neg (fun h => e (by
          obtain ⟨h1, h2⟩ := cell_inj (by omega) hk h
          exact ⟨h1.symm, h2.symm⟩))]
        rw [List.getD_eq_getElem?_getD]
    refine ⟨acc', ?_, a2.trans List.length_set, ?_, ?_⟩
    · rw [addAll, if_pos hin]
      exact a1
    · intro y' k hk hne
      rw [a3 y' k hk (by
        rcases hne with h | h
        · exact .inl h
        · exact .inr fun q hq => h q (List.mem_cons_of_mem _ hq)), hset y' k hk, if_neg]
      rintro ⟨e1, e2⟩
      rcases hne with h | h
      · exact h e1
      · exact h (i, v) List.mem_cons_self e2.symm
    · intro c hc
      rw [a4 c hc, upto]
      have one : ∀ n, n ≤ w + 2 → pre (cell w (acc.set (y * (w + 2) + i) (acc.getD (y * (w + 2) + i) 0 + v)) y) n =
          pre (cell w acc y) n + if i < n then v else 0 := by
        intro n
        induction n with
        | zero => 
          intro _
          rw [pre, pre, if_neg (by omega)]
          grind
        | succ n ihn =>
          intro hn
          rw [pre, pre, ihn (by omega), hset y n (by omega)]
          by_cases e : n = i
          · subst e
            rw [if_neg (show ¬ n < n by omega), if_pos ⟨rfl, rfl⟩, if_pos (show n < n + 1 by omega)]
            grind
          · rw [if_neg (show ¬ (y = y ∧ n = i) from fun h => e h.2)]
            by_cases e2 : i < n
            · rw [if_pos e2, if_pos (by omega)]
              grind
            · rw [if_neg e2, if_neg (by omega)]
              grind
      rw [one (c + 1) (by omega)]
      by_cases e : i ≤ c
      · rw [if_pos e, if_pos (by omega)]
        grind
      · rw [if_neg e, if_neg (by omega)]
        grind

/-- The shape of a rasterizer, and where its cells are zero. -/
structure Shape (r : Raster) : Prop where
  acc : r.acc.length = (r.width + 2) * max r.height 1
  mins : r.rowMin.length = max r.height 1
  maxs : r.rowMax.length = max r.height 1
  before : ∀ y k, y < r.height → k < r.width + 2 → k < r.rowMin.getD y 0 → cell r.width r.acc y k = 0
  after : ∀ y k, y < r.height → k < r.width + 2 → r.rowMax.getD y 0 < k → cell r.width r.acc y k = 0

theorem new_shape (w h : Nat) : Shape (new w h) ∧ ∀ y k, cell w (new w h).acc y k = 0 := by
  have z : ∀ y k, cell w (new w h).acc y k = 0 := by
    intro y k
    unfold cell new
    rw [List.getD_eq_getElem?_getD]
    dsimp only
    rw [List.getElem?_replicate]
    split <;> rfl
  exact ⟨⟨List.length_replicate, List.length_replicate, List.length_replicate, fun y k _ _ _ => z y k, fun y k _ _ _ => z y k⟩, z⟩

/-- What changes between two states: sizes stay, and the sums of a row grow by `δ`. -/
def Grown (r r' : Raster) (δ : Nat → Nat → Rat) : Prop :=
  Shape r' ∧ r'.width = r.width ∧ r'.height = r.height ∧
    ∀ y c, y < r.height → c < r.width + 2 → pre (cell r.width r'.acc y) (c + 1) = pre (cell r.width r.acc y) (c + 1) + δ y c

theorem row_grown {r : Raster} (hs : Shape r) {y : Nat} (hy : y < r.height) (x xn d : Rat) :
    ∃ r', depositRow r y x xn d = .ok r' ∧
      Grown r r' (fun y' c => if y' = y then upto c (deposits x xn d r.width).2.2 else 0) := by
  obtain ⟨k0, k1, k2, _⟩ := deposits_spec x xn d r.width
  unfold depositRow
  dsimp only
  rw [if_pos (by rw [hs.mins, hs.maxs]; omega)]
  generalize deposits x xn d r.width = p at *
  obtain ⟨n0, n1, ps⟩ := p
  dsimp only at *
  have hcol : ∀ p ∈ ps, p.1 ≤ r.width + 1 := fun p hp => by
    have := k2 p hp
    omega
  have hlen : (y + 1) * (r.width + 2) ≤ r.acc.length := by
    rw [hs.acc, Nat.mul_comm (r.width + 2)]
    exact Nat.mul_le_mul_right _ (by omega)
  obtain ⟨acc', a1, a2, a3, a4⟩ := addAll_spec hcol hlen
  rw [a1]
  refine ⟨_, rfl, ⟨a2.trans hs.acc, List.length_set.trans hs.mins, List.length_set.trans hs.maxs, ?_, ?_⟩, rfl, rfl, ?_⟩
  · intro y' k hy' hk hlt
    dsimp only at *
    by_cases e : y' = y
    · subst e
      rw [List.getD_eq_getElem?_getD, List.getElem?_set, if_pos rfl, if_pos (by rw [hs.mins]; omega)] at hlt
      have hlt : k < min (r.rowMin.getD y' 0) n0 := hlt
      rw [a3 y' k hk (.inr fun p hp e => by have := k2 p hp; omega)]
      exact hs.before y' k hy' hk (by omega)
    · rw [List.getD_eq_getElem?_getD, List.getElem?_set, if_neg (fun h => e h.symm), ← List.getD_eq_getElem?_getD] at hlt
      rw [a3 y' k hk (.inl e)]
      exact hs.before y' k hy' hk hlt
  · intro y' k hy' hk hlt
    dsimp only at *
    by_cases e : y' = y
    · subst e
      rw [List.getD_eq_getElem?_getD, List.getElem?_set, if_pos rfl, if_pos (by rw [hs.maxs]; omega)] at hlt
      have hlt : max (r.rowMax.getD y' 0) (max n1 (n0 + 1)) < k := hlt
      rw [a3 y' k hk (.inr fun p hp e => by have := k2 p hp; omega)]
      exact hs.after y' k hy' hk (by omega)
    · rw [List.getD_eq_getElem?_getD, List.getElem?_set, if_neg (fun h => e h.symm), ← List.getD_eq_getElem?_getD] at hlt
      rw [a3 y' k hk (.inl e)]
      exact hs.after y' k hy' hk hlt
  · intro y' c hy' hc
    dsimp only
    by_cases e : y' = y
    · subst e
      rw [if_pos rfl]
      exact a4 c hc
    · rw [if_neg e, Rat.add_zero]
      exact pre_congr fun k hk => a3 y' k (by omega) (.inl e)

theorem grown_refl {r : Raster} (hs : Shape r) : Grown r r (fun _ _ => 0) :=
  ⟨hs, rfl, rfl, fun _ _ _ _ => by rw [Rat.add_zero]⟩

theorem grown_trans {r s t : Raster} {δ ε : Nat → Nat → Rat} (h1 : Grown r s δ) (h2 : Grown s t ε) : Grown r t (fun y c => δ y c + ε y c) := by
  obtain ⟨_, w1, g1, p1⟩ := h1
  obtain ⟨s2, w2, g2, p2⟩ := h2
  refine ⟨s2, w2.trans w1, g2.trans g1, ?_⟩
  intro y c hy hc
  have := p2 y c (by omega) (by omega)
  rw [w1] at this
  rw [this, p1 y c hy hc]
  grind

/-! ## Edges -/

theorem rows_grown {dxdy yTop yBot dir at0 y0 : Rat} {w : Nat} (htb : yTop < yBot) (hin : ∀ y, yTop ≤ y → y ≤ yBot → 0 ≤ at0 + (y - y0) * dxdy ∧ at0 + (y - y0) * dxdy ≤ w) :
    ∀ {n y : Nat} {x : Rat} {r : Raster}, Shape r → r.width = w → y + n ≤ r.height → (n ≠ 0 → yTop < (y : Rat) + 1) →
      (n ≠ 0 → ((y + n : Nat) : Rat) - 1 < yBot) → (n ≠ 0 → x = at0 + (max (y : Rat) yTop - y0) * dxdy) →
    ∃ r' δ, rows dxdy yTop yBot dir n y x r = .ok r' ∧ Grown r r' δ ∧ ∀ y' c : Nat,
      (y ≤ y' ∧ y' < y + n → Area c (at0 + (max (y' : Rat) yTop - y0) * dxdy) (at0 + (min ((y' : Rat) + 1) yBot - y0) * dxdy)
        ((min ((y' : Rat) + 1) yBot - max (y' : Rat) yTop) * dir) (δ y' c)) ∧
      (¬ (y ≤ y' ∧ y' < y + n) → δ y' c = 0) := by
  intro n
  induction n with
  | zero =>
    intro y x r hs hw hy _ _ hx
    exact ⟨r, _, rfl, grown_refl hs, fun y' c => ⟨fun h => absurd h (by omega), fun _ => rfl⟩⟩
  | succ n ih =>
    intro y x r hs hw hy ht hb hx
    have ht := ht (by omega)
    have hb := hb (by omega)
    have hyn : ((y + (n + 1) : Nat) : Rat) = (y : Rat) + n + 1 := by
      rw [show y + (n + 1) = y + n + 1 by omega, Rat.natCast_add, Rat.natCast_add]
      rfl
    rw [hyn] at hb
    have n0 : (0 : Rat) ≤ n := Rat.natCast_nonneg
    have lt1 : (y : Rat) < yBot := by grind
    have hy1 : ((y + 1 : Nat) : Rat) = (y : Rat) + 1 := by
      rw [Rat.natCast_add]
      rfl
    have hx := hx (by omega)
    have hdy : ¬ min ((y : Rat) + 1) yBot - max (y : Rat) yTop ≤ 0 := by grind
    · rw [rows]
      rw [if_neg hdy]
      have hxn : x + dxdy * (min ((y : Rat) + 1) yBot - max (y : Rat) yTop) = at0 + (min ((y : Rat) + 1) yBot - y0) * dxdy := by
        rw [hx]
        grind
      obtain ⟨r1, b1, b2⟩ := row_grown hs (show y < r.height by omega) x (x + dxdy * (min ((y : Rat) + 1) yBot - max (y : Rat) yTop))
        ((min ((y : Rat) + 1) yBot - max (y : Rat) yTop) * dir)
      rw [b1]
      obtain ⟨_, _, _, ar⟩ := deposits_spec x (x + dxdy * (min ((y : Rat) + 1) yBot - max (y : Rat) yTop))
        ((min ((y : Rat) + 1) yBot - max (y : Rat) yTop) * dir) r.width
      have i1 := hin (max (y : Rat) yTop) (by grind) (by grind)
      have i2 := hin (min ((y : Rat) + 1) yBot) (by grind) (by grind)
      rw [hw] at ar
      rw [hxn, hx, clamp_id i1.1 i1.2, clamp_id i2.1 i2.2, ← hx, ← hxn, ← hw] at ar
      obtain ⟨r', δ, c1, c2, c3⟩ := ih (y := y + 1) (x := x + dxdy * (min ((y : Rat) + 1) yBot - max (y : Rat) yTop)) (r := r1) b2.1
        (b2.2.1.trans hw) (by have := b2.2.2.1; omega) (by
          intro _
          rw [hy1]
          grind) (by
          intro hn
          rw [show y + 1 + n = y + (n + 1) by omega, hyn]
          exact hb) (by
          intro hn
          rw [hxn, hy1]
          cases n with
          | zero => exact absurd rfl hn
          | succ n =>
            have : (1 : Rat) ≤ ((n + 1 : Nat) : Rat) := by
              rw [Rat.natCast_add]
              have : (0 : Rat) ≤ n := Rat.natCast_nonneg
              show (1 : Rat) ≤ n + 1
              grind
            rw [show min ((y : Rat) + 1) yBot = y + 1 by grind, show max ((y : Rat) + 1) yTop = y + 1 by grind])
      refine ⟨r', _, c1, grown_trans b2 c2, ?_⟩
      intro y' c
      constructor
      · intro hr
        by_cases e : y' = y
        · subst e
          rw [if_pos rfl, (c3 y' c).2 (by omega), Rat.add_zero]
          rw [← hx, ← hxn]
          exact ar c
        · rw [if_neg e, Rat.zero_add]
          exact (c3 y' c).1 (by omega)
      · intro hr
        rw [if_neg (by omega), (c3 y' c).2 (by omega), Rat.add_zero]


theorem edge_grown {r : Raster} (hs : Shape r) {dir x topY bx botY : Rat} (h0 : 0 ≤ x) (h1 : x ≤ r.width) (h2 : 0 ≤ bx) (h3 : bx ≤ r.width)
    (hy : topY ≤ botY) : ∃ r' δ, edge r dir x topY bx botY = .ok r' ∧ Grown r r' δ ∧ ∀ y c : Nat, y < r.height →
      Area c (x + (within y topY - topY) * ((bx - x) / (botY - topY))) (x + (within y botY - topY) * ((bx - x) / (botY - topY)))
        ((within y botY - within y topY) * dir) (δ y c) := by
  have still : (∀ y : Nat, y < r.height → within y botY = within y topY) → ∃ r' δ, Outcome.ok r = .ok r' ∧ Grown r r' δ ∧ ∀ y c : Nat, y < r.height →
      Area c (x + (within y topY - topY) * ((bx - x) / (botY - topY))) (x + (within y botY - topY) * ((bx - x) / (botY - topY)))
        ((within y botY - within y topY) * dir) (δ y c) := by
    intro hw
    refine ⟨r, _, rfl, grown_refl hs, ?_⟩
    intro y c hyh
    rw [hw y hyh]
    exact area_cast (area_zero _ _) rfl rfl (by grind) rfl
  unfold edge
  by_cases hd : botY - topY ≤ 0
  · rw [if_pos hd]
    apply still
    intro y _
    rw [show botY = topY by grind]
  · rw [if_neg hd]
    dsimp only
    by_cases hc : min botY r.height ≤ (if topY < 0 then 0 else topY)
    · rw [if_pos hc]
      apply still
      intro y hyh
      have a1 := cast_lt hyh
      have a2 : (0 : Rat) ≤ y := Rat.natCast_nonneg
      unfold within
      split at hc <;> grind
    · rw [if_neg hc]
      have hD : 0 < botY - topY := by grind
      have hq : ((bx - x) / (botY - topY)) * (botY - topY) = bx - x := by
        rw [Rat.div_def, Rat.mul_assoc, Rat.inv_mul_cancel _ (by grind), Rat.mul_one]
      have hqi : ((bx - x) / (botY - topY)) = (bx - x) * (botY - topY)⁻¹ := Rat.div_def _ _
      have hip : 0 < (botY - topY)⁻¹ := Rat.inv_pos.2 hD
      have hii : (botY - topY)⁻¹ * (botY - topY) = 1 := Rat.inv_mul_cancel _ (by grind)
      have hin : ∀ y, topY ≤ y → y ≤ botY → 0 ≤ x + (y - topY) * ((bx - x) / (botY - topY)) ∧ x + (y - topY) * ((bx - x) / (botY - topY)) ≤ r.width := by
        intro y g0 g1
        rw [hqi]
        generalize (botY - topY)⁻¹ = i at *
        have t0 : 0 ≤ (y - topY) * i := Rat.mul_nonneg (by grind) (by grind)
        have t1 : 0 ≤ (botY - y) * i := Rat.mul_nonneg (by grind) (by grind)
        have e : x + (y - topY) * ((bx - x) * i) = (botY - y) * i * x + (y - topY) * i * bx := by grind
        rw [e]
        have e1 : (botY - y) * i + (y - topY) * i = 1 := by grind
        generalize (botY - y) * i = α at *
        generalize (y - topY) * i = β at *
        have p1 : 0 ≤ α * x := Rat.mul_nonneg t1 h0
        have p2 : 0 ≤ β * bx := Rat.mul_nonneg t0 h2
        have p3 : 0 ≤ α * (r.width - x) := Rat.mul_nonneg t1 (by grind)
        have p4 : 0 ≤ β * (r.width - bx) := Rat.mul_nonneg t0 (by grind)
        have e2 : α * (r.width : Rat) + β * r.width = r.width := by
          have : (α + β) * (r.width : Rat) = r.width := by rw [Rat.add_comm] at e1; grind
          grind
        constructor
        · grind
        · grind
      have hyt : ∃ yTop, (if topY < 0 then 0 else topY) = yTop ∧ 0 ≤ yTop ∧ topY ≤ yTop ∧ (topY < 0 → yTop = 0) ∧ (¬ topY < 0 → yTop = topY) := by
        refine ⟨_, rfl, ?_, ?_, ?_, ?_⟩ <;> split <;> grind
      obtain ⟨yTop, e1, g0, g1, g2, g3⟩ := hyt
      rw [e1] at hc ⊢
      have hxs : (if topY < 0 then x + -topY * ((bx - x) / (botY - topY)) else x) = x + (yTop - topY) * ((bx - x) / (botY - topY)) := by
        split
        · rw [g2 (by assumption)]
          grind
        · rw [g3 (by assumption)]
          grind
      rw [hxs]
      have hpos : 0 ≤ min botY r.height := by grind
      obtain ⟨f1, f2⟩ := floor_nat g0
      obtain ⟨u1, u2⟩ := ceil_nat hpos
      have hH : (min botY r.height).ceil.toNat ≤ r.height := by
        have : (((min botY r.height).ceil.toNat : Nat) : Rat) < ((r.height + 1 : Nat) : Rat) := by
          rw [Rat.natCast_add]
          show _ < (r.height : Rat) + 1
          grind
        have := Rat.natCast_lt_natCast.1 this
        omega
      rw [Nat.min_eq_left hH]
      generalize yTop.floor.toNat = first at *
      generalize (min botY r.height).ceil.toNat = last at *
      have hfl : first < last := by
        have : (first : Rat) < last := by grind
        exact Rat.natCast_lt_natCast.1 this
      obtain ⟨r', δ, c1, c2, c3⟩ := rows_grown (dxdy := (bx - x) / (botY - topY)) (yTop := yTop) (yBot := min botY r.height) (dir := dir) (at0 := x) (y0 := topY)
        (w := r.width) (by grind) (fun y a b => hin y (by grind) (by grind)) (n := last - first) (y := first)
        (x := x + (yTop - topY) * ((bx - x) / (botY - topY))) hs rfl (by omega) (fun _ => f2)
        (fun _ => by rw [show first + (last - first) = last by omega]; exact u1) (fun _ => by rw [show max (first : Rat) yTop = yTop by grind])
      refine ⟨r', δ, c1, c2, ?_⟩
      intro y c hyh
      have a1 := cast_lt hyh
      have a2 : (0 : Rat) ≤ y := Rat.natCast_nonneg
      by_cases hrow : first ≤ y ∧ y < last
      · have b1 := Rat.natCast_le_natCast.2 hrow.1
        have b2 := cast_lt hrow.2
        have w1 : within y topY = max (y : Rat) yTop := by
          unfold within
          by_cases hn : topY < 0
          · rw [g2 hn]; grind
          · rw [g3 hn] at *; grind
        have w2 : within y botY = min ((y : Rat) + 1) (min botY r.height) := by
          unfold within
          grind
        rw [w1, w2]
        exact (c3 y c).1 (by omega)
      · rw [(c3 y c).2 (by omega)]
        have hw : within y botY = within y topY := by
          by_cases hlt : y < first
          · have b1 := cast_lt hlt
            have : ¬ topY < 0 := by
              intro hn
              have := g2 hn
              grind
            have := g3 this
            unfold within
            grind
          · have b1 : (last : Rat) ≤ y := Rat.natCast_le_natCast.2 (by omega)
            unfold within
            grind
        rw [hw]
        exact area_cast (area_zero _ _) rfl rfl (by grind) rfl

theorem line_grown {r : Raster} (hs : Shape r) {e : Edge} (he : Inside r.width e) :
    ∃ r' δ, line r e.a.1 e.a.2 e.b.1 e.b.2 = .ok r' ∧ Grown r r' δ ∧ ∀ y c : Nat, y < r.height → EdgeArea c y e (δ y c) := by
  obtain ⟨h0, h1, h2, h3⟩ := he
  unfold line
  by_cases hy : e.a.2 ≤ e.b.2
  · rw [if_pos hy]
    obtain ⟨r', δ, a, b, c⟩ := edge_grown hs (dir := 1) h0 h1 h2 h3 hy
    refine ⟨r', δ, a, b, ?_⟩
    intro y k hk
    exact area_cast (c y k hk) rfl rfl (by grind) rfl
  · rw [if_neg hy]
    obtain ⟨r', δ, a, b, c⟩ := edge_grown hs (dir := -1) h2 h3 h0 h1 (show e.b.2 ≤ e.a.2 by grind)
    refine ⟨r', δ, a, b, ?_⟩
    intro y k hk
    have hne : e.b.2 - e.a.2 ≠ 0 := by grind
    have hne' : e.a.2 - e.b.2 ≠ 0 := by grind
    have at_eq : ∀ z, e.b.1 + (z - e.b.2) * ((e.a.1 - e.b.1) / (e.a.2 - e.b.2)) = e.at z := by
      intro z
      unfold Edge.at
      have q1 : ((e.a.1 - e.b.1) / (e.a.2 - e.b.2)) * (e.a.2 - e.b.2) = e.a.1 - e.b.1 := by
        rw [Rat.div_def, Rat.mul_assoc, Rat.inv_mul_cancel _ hne', Rat.mul_one]
      have q2 : ((e.b.1 - e.a.1) / (e.b.2 - e.a.2)) * (e.b.2 - e.a.2) = e.b.1 - e.a.1 := by
        rw [Rat.div_def, Rat.mul_assoc, Rat.inv_mul_cancel _ hne, Rat.mul_one]
      have q3 : (e.a.1 - e.b.1) / (e.a.2 - e.b.2) = (e.b.1 - e.a.1) / (e.b.2 - e.a.2) := by
        refine cancel hne ?_
        grind
      rw [q3]
      generalize (e.b.1 - e.a.1) / (e.b.2 - e.a.2) = q at *
      grind
    have := area_swap (c y k hk)
    rw [at_eq, at_eq] at this
    exact area_cast this rfl rfl (by grind) rfl


/-- The ends of an edge. -/
def ends (e : Edge) : Point × Point := (e.a, e.b)

theorem lines_grown : ∀ {es : List Edge} {r : Raster}, Shape r → (∀ e ∈ es, Inside r.width e) →
    ∃ r' δ, lines (es.map ends) r = .ok r' ∧ Grown r r' δ ∧ ∀ y c : Nat, y < r.height → Areas c y es (δ y c) := by
  intro es
  induction es with
  | nil =>
    intro r hs _
    exact ⟨r, _, rfl, grown_refl hs, fun _ _ _ => .nil⟩
  | cons e es ih =>
    intro r hs he
    obtain ⟨r1, δ1, a1, a2, a3⟩ := line_grown hs (he e List.mem_cons_self)
    obtain ⟨r2, δ2, b1, b2, b3⟩ := ih (r := r1) a2.1 (fun f hf => by
      rw [a2.2.1]
      exact he f (List.mem_cons_of_mem _ hf))
    refine ⟨r2, _, ?_, grown_trans a2 b2, ?_⟩
    · rw [List.map_cons, lines]
      show bind (line r e.a.1 e.a.2 e.b.1 e.b.2) _ = _
      rw [a1]
      exact b1
    · intro y c hy
      exact .cons (a3 y c hy) (b3 y c (by have := a2.2.2.1; omega))

theorem rows_safe {dxdy yTop yBot dir : Rat} : ∀ {n y : Nat} {x : Rat} {r : Raster}, Shape r → y + n ≤ r.height →
    ∃ r' δ, rows dxdy yTop yBot dir n y x r = .ok r' ∧ Grown r r' δ := by
  intro n
  induction n with
  | zero =>
    intro y x r hs _
    exact ⟨r, _, rfl, grown_refl hs⟩
  | succ n ih =>
    intro y x r hs hy
    rw [rows]
    split
    · exact ih hs (by omega)
    · obtain ⟨r1, b1, b2⟩ := row_grown hs (show y < r.height by omega) x (x + dxdy * (min ((y : Rat) + 1) yBot - max (y : Rat) yTop))
        ((min ((y : Rat) + 1) yBot - max (y : Rat) yTop) * dir)
      rw [b1]
      obtain ⟨r2, δ, c1, c2⟩ := ih (y := y + 1) (x := x + dxdy * (min ((y : Rat) + 1) yBot - max (y : Rat) yTop)) b2.1 (by have := b2.2.2.1; omega)
      exact ⟨r2, _, c1, grown_trans b2 c2⟩

theorem line_safe {r : Raster} (hs : Shape r) (x0 y0 x1 y1 : Rat) : ∃ r' δ, line r x0 y0 x1 y1 = .ok r' ∧ Grown r r' δ := by
  have edge_safe : ∀ dir x topY bx botY, ∃ r' δ, edge r dir x topY bx botY = .ok r' ∧ Grown r r' δ := by
    intro dir x topY bx botY
    unfold edge
    split
    · exact ⟨r, _, rfl, grown_refl hs⟩
    · dsimp only
      generalize (if topY < 0 then (0 : Rat) else topY) = yTop
      split
      · exact ⟨r, _, rfl, grown_refl hs⟩
      · by_cases h : yTop.floor.toNat ≤ r.height
        · exact rows_safe hs (by omega)
        · rw [show min (min botY r.height).ceil.toNat r.height - yTop.floor.toNat = 0 by omega]
          exact ⟨r, _, rfl, grown_refl hs⟩
  unfold line
  split <;> exact edge_safe _ _ _ _ _

theorem lines_safe : ∀ {es : List (Point × Point)} {r : Raster}, Shape r → ∃ r' δ, lines es r = .ok r' ∧ Grown r r' δ := by
  intro es
  induction es with
  | nil =>
    intro r hs
    exact ⟨r, _, rfl, grown_refl hs⟩
  | cons e es ih =>
    intro r hs
    obtain ⟨r1, δ1, a1, a2⟩ := line_safe hs e.1.1 e.1.2 e.2.1 e.2.2
    obtain ⟨r2, δ2, b1, b2⟩ := ih (r := r1) a2.1
    refine ⟨r2, _, ?_, grown_trans a2 b2⟩
    rw [lines, a1]
    exact b1

/-! ## Reading the sums -/

theorem pre_add (f : Nat → Rat) (m n : Nat) : pre f (m + n) = pre f m + pre (fun k => f (m + k)) n := by
  induction n with
  | zero => rw [pre, Rat.add_zero]; rfl
  | succ n ih =>
    rw [← Nat.add_assoc, pre, ih, pre]
    grind

theorem pre_zero {f : Nat → Rat} {n : Nat} (h : ∀ k, k < n → f k = 0) : pre f n = 0 := by
  induction n with
  | zero => rfl
  | succ n ih => rw [pre, ih (fun k hk => h k (by omega)), h n (by omega), Rat.add_zero]

theorem sums_length (s : Rat) (l : List Rat) : (sums s l).length = l.length := by
  induction l generalizing s with
  | nil => rfl
  | cons a l ih => rw [sums, List.length_cons, ih, List.length_cons]

theorem sums_get {s : Rat} {l : List Rat} {i : Nat} (h : i < l.length) : (sums s l)[i]? = some (s + pre (fun k => l.getD k 0) (i + 1)) := by
  induction l generalizing s i with
  | nil => exact absurd h (by simp only [List.length_nil]; omega)
  | cons a l ih =>
    rw [sums]
    cases i with
    | zero =>
      show some (s + a) = some (s + (0 + a))
      rw [Rat.zero_add]
    | succ i =>
      rw [List.getElem?_cons_succ, ih (by simp only [List.length_cons] at h; omega), show i + 1 + 1 = 1 + (i + 1) by omega, pre_add (fun k => (a :: l).getD k 0) 1 (i + 1)]
      show some _ = some (s + (0 + a + _))
      refine congrArg some ?_
      have : pre (fun k => (a :: l).getD (1 + k) 0) (i + 1) = pre (fun k => l.getD k 0) (i + 1) := by
        apply pre_congr
        intro k _
        rw [Nat.add_comm 1 k]
        rfl
      rw [this]
      grind

theorem convert_zero : convert 0 = 0 := by decide +kernel

theorem row_resolved {r : Raster} (hs : Shape r) (hw : r.width ≠ 0) {y : Nat} (hy : y < r.height) :
    (finishRow r y).length = r.width ∧
      (pre (cell r.width r.acc y) (r.width + 2) = 0 → ∀ c, c < r.width → (finishRow r y)[c]? = some (convert (pre (cell r.width r.acc y) (c + 1)))) := by
  have hb := hs.before y
  have ha := hs.after y
  unfold finishRow
  dsimp only
  have hlen : (y + 1) * (r.width + 2) ≤ r.acc.length := by
    rw [hs.acc, Nat.mul_comm (r.width + 2)]
    exact Nat.mul_le_mul_right _ (by omega)
  rw [Nat.succ_mul] at hlen
  have right : pre (cell r.width r.acc y) (r.width + 2) = 0 → ∀ c, c < r.width → r.rowMax.getD y 0 < c → pre (cell r.width r.acc y) (c + 1) = 0 := by
    intro ht c hc hlt
    have := pre_add (cell r.width r.acc y) (c + 1) (r.width + 2 - (c + 1))
    rw [show c + 1 + (r.width + 2 - (c + 1)) = r.width + 2 by omega, ht, pre_zero (fun k hk => ha (c + 1 + k) hy (by omega) (by omega))] at this
    grind
  have left : ∀ c, c < r.width → c < r.rowMin.getD y 0 → pre (cell r.width r.acc y) (c + 1) = 0 := by
    intro c hc hlt
    exact pre_zero fun k hk => hb k hy (by omega) (by omega)
  generalize r.rowMin.getD y 0 = lo at *
  generalize r.rowMax.getD y 0 = hi at *
  by_cases hlt : min hi (r.width - 1) < lo
  · rw [if_pos hlt]
    refine ⟨List.length_replicate, ?_⟩
    intro ht c hc
    have hz : pre (cell r.width r.acc y) (c + 1) = 0 := by
      by_cases h1 : c < lo
      · exact left c hc h1
      · exact right ht c hc (by omega)
    rw [hz, convert_zero, List.getElem?_replicate, if_pos hc]
  · rw [if_neg hlt]
    have hsl : ((r.acc.drop (y * (r.width + 2) + lo)).take (min hi (r.width - 1) + 1 - lo)).length = min hi (r.width - 1) + 1 - lo := by
      rw [List.length_take, List.length_drop]
      omega
    constructor
    · rw [List.length_append, List.length_append, List.length_replicate, List.length_replicate, List.length_map, sums_length, hsl]
      omega
    · intro ht c hc
      rw [List.append_assoc]
      by_cases h1 : c < lo
      · rw [List.getElem?_append_left (by rw [List.length_replicate]; exact h1), List.getElem?_replicate, if_pos h1, left c hc h1, convert_zero]
      · rw [List.getElem?_append_right (by rw [List.length_replicate]; omega), List.length_replicate]
        by_cases h2 : c ≤ min hi (r.width - 1)
        · rw [List.getElem?_append_left (by rw [List.length_map, sums_length, hsl]; omega), List.getElem?_map, sums_get (by rw [hsl]; omega)]
          have e : pre (cell r.width r.acc y) (c + 1) = 0 + pre (fun k => ((r.acc.drop (y * (r.width + 2) + lo)).take (min hi (r.width - 1) + 1 - lo)).getD k 0) (c - lo + 1) := by
            rw [show c + 1 = lo + (c - lo + 1) by omega, pre_add, pre_zero (fun k hk => hb k hy (by omega) hk)]
            refine congrArg (0 + ·) (pre_congr ?_)
            intro k hk
            unfold cell
            rw [List.getD_eq_getElem?_getD, List.getD_eq_getElem?_getD, List.getElem?_take, if_pos (by omega), List.getElem?_drop, Nat.add_assoc]
          rw [e]
          rfl
        · rw [List.getElem?_append_right (by rw [List.length_map, sums_length, hsl]; omega), List.getElem?_replicate, List.length_map, sums_length, hsl,
            if_pos (by omega), right ht c hc (by omega), convert_zero]

theorem flat_get {w : Nat} {f : Nat → List Nat} : ∀ {h : Nat}, (∀ y, y < h → (f y).length = w) → ((List.range h).flatMap f).length = h * w ∧
    ∀ y c, y < h → c < w → ((List.range h).flatMap f)[y * w + c]? = (f y)[c]? := by
  intro h
  induction h with
  | zero => exact fun _ => ⟨by simp, fun y c hy => absurd hy (by omega)⟩
  | succ h ih =>
    intro hf
    obtain ⟨i1, i2⟩ := ih (fun y hy => hf y (by omega))
    rw [List.range_succ, List.flatMap_append, List.flatMap_singleton]
    refine ⟨by rw [List.length_append, i1, hf h (by omega), Nat.succ_mul], ?_⟩
    intro y c hy hc
    by_cases e : y < h
    · have : y * w + c < h * w := by
        have := Nat.mul_le_mul_right w (show y + 1 ≤ h from e)
        rw [Nat.succ_mul] at this
        omega
      rw [List.getElem?_append_left (by rw [i1]; exact this)]
      exact i2 y c e hc
    · have : y = h := by omega
      subst this
      rw [List.getElem?_append_right (by rw [i1]; omega), i1, Nat.add_sub_cancel_left]

theorem finish_length {r : Raster} (hs : Shape r) : (finish r).length = r.width * r.height := by
  unfold finish
  by_cases hw : r.width = 0
  · rw [if_pos hw, hw]
    simp
  · rw [if_neg hw, (flat_get fun y hy => (row_resolved hs hw hy).1).1, Nat.mul_comm]

theorem finish_get {r : Raster} (hs : Shape r) {y c : Nat} (hy : y < r.height) (hc : c < r.width) (ht : pre (cell r.width r.acc y) (r.width + 2) = 0) :
    (finish r)[y * r.width + c]? = some (convert (pre (cell r.width r.acc y) (c + 1))) := by
  have hw : r.width ≠ 0 := by omega
  unfold finish
  rw [if_neg hw, (flat_get fun y hy => (row_resolved hs hw hy).1).2 y c hy hc]
  exact (row_resolved hs hw hy).2 ht c hc

theorem convert_byte (a : Rat) : Byte a (convert a) := by
  unfold convert Byte
  have h0 : 0 ≤ min (max a (-a)) 1 * 255 := Rat.mul_nonneg (by
    rcases Rat.le_total (a := 0) (b := a) with h | h <;> grind) (by decide +kernel)
  have h1 : min (max a (-a)) 1 * 255 ≤ 255 := by grind
  generalize min (max a (-a)) 1 * 255 = q at *
  obtain ⟨f1, f2⟩ := floor_nat (x := q + 1 / 2) (by grind)
  generalize (q + 1 / 2).floor.toNat = n at *
  have : n ≤ 255 := by
    have : (n : Rat) < ((256 : Nat) : Rat) := by
      show (n : Rat) < 256
      grind
    have := Rat.natCast_lt_natCast.1 this
    omega
  rw [Nat.min_eq_right this]
  refine ⟨this, ?_, ?_⟩ <;> grind

/-! ## Closed contours -/

theorem at_start (e : Edge) : e.at e.a.2 = e.a.1 := by
  unfold Edge.at
  grind

theorem at_end {e : Edge} (h : e.a.2 ≠ e.b.2) : e.at e.b.2 = e.b.1 := by
  unfold Edge.at
  rw [Rat.div_def, Rat.mul_comm (e.b.1 - e.a.1), ← Rat.mul_assoc, Rat.mul_inv_cancel _ (by grind), Rat.one_mul]
  grind

/-- Where the edge is in the row, it is between its ends. -/
theorem within_between {r a b : Rat} (h : within r a ≠ within r b) :
    ((a ≤ within r a ∧ within r a ≤ b) ∨ (b ≤ within r a ∧ within r a ≤ a)) ∧ ((a ≤ within r b ∧ within r b ≤ b) ∨ (b ≤ within r b ∧ within r b ≤ a)) ∧ a ≠ b := by
  unfold within at *
  grind

/-- The point of the edge at a height between its ends. -/
theorem at_part {e : Edge} {y : Rat} (hne : e.a.2 ≠ e.b.2) (h : (e.a.2 ≤ y ∧ y ≤ e.b.2) ∨ (e.b.2 ≤ y ∧ y ≤ e.a.2)) :
    ∃ s, 0 ≤ s ∧ s ≤ 1 ∧ e.part s = (e.at y, y) := by
  have hd : e.b.2 - e.a.2 ≠ 0 := by grind
  have hi : (e.b.2 - e.a.2) * (e.b.2 - e.a.2)⁻¹ = 1 := Rat.mul_inv_cancel _ hd
  refine ⟨(y - e.a.2) * (e.b.2 - e.a.2)⁻¹, ?_, ?_, ?_⟩
  · rcases h with h | h
    · exact Rat.mul_nonneg (by grind) (Rat.le_of_lt (Rat.inv_pos.2 (by grind)))
    · have hp : 0 < (e.a.2 - e.b.2)⁻¹ := Rat.inv_pos.2 (by grind)
      have : (e.b.2 - e.a.2)⁻¹ = -(e.a.2 - e.b.2)⁻¹ := by
        have h2 : (e.a.2 - e.b.2) * (e.a.2 - e.b.2)⁻¹ = 1 := Rat.mul_inv_cancel _ (by grind)
        refine cancel hd ?_
        grind
      rw [this]
      have := Rat.mul_nonneg (a := e.a.2 - y) (b := (e.a.2 - e.b.2)⁻¹) (by grind) (Rat.le_of_lt hp)
      grind
  · rcases h with h | h
    · have := Rat.mul_nonneg (a := e.b.2 - y) (b := (e.b.2 - e.a.2)⁻¹) (by grind) (Rat.le_of_lt (Rat.inv_pos.2 (by grind)))
      grind
    · have hp : 0 < (e.a.2 - e.b.2)⁻¹ := Rat.inv_pos.2 (by grind)
      have : (e.b.2 - e.a.2)⁻¹ = -(e.a.2 - e.b.2)⁻¹ := by
        have h2 : (e.a.2 - e.b.2) * (e.a.2 - e.b.2)⁻¹ = 1 := Rat.mul_inv_cancel _ (by grind)
        refine cancel hd ?_
        grind
      rw [this] at hi ⊢
      have := Rat.mul_nonneg (a := y - e.b.2) (b := (e.a.2 - e.b.2)⁻¹) (by grind) (Rat.le_of_lt hp)
      grind
  · unfold Edge.part Edge.at
    rw [Rat.div_def]
    refine Prod.ext ?_ ?_
    · dsimp only
      grind
    · dsimp only
      grind

theorem part_inside {w : Rat} {e : Edge} (he : Inside w e) {s : Rat} (h0 : 0 ≤ s) (h1 : s ≤ 1) : 0 ≤ (e.part s).1 ∧ (e.part s).1 ≤ w := by
  obtain ⟨a, b, c, d⟩ := he
  unfold Edge.part
  dsimp only
  have p1 : 0 ≤ (1 - s) * e.a.1 := Rat.mul_nonneg (by grind) a
  have p2 : 0 ≤ s * e.b.1 := Rat.mul_nonneg h0 c
  have p3 : 0 ≤ (1 - s) * (w - e.a.1) := Rat.mul_nonneg (by grind) (by grind)
  have p4 : 0 ≤ s * (w - e.b.1) := Rat.mul_nonneg h0 (by grind)
  constructor <;> grind

/-- Right of all edges, the area of an edge is its height. -/
theorem edge_height {w c r : Rat} {e : Edge} (he : Inside w e) (hc : w ≤ c) {v : Rat} (ha : EdgeArea c r e v) : v = within r e.b.2 - within r e.a.2 := by
  by_cases h : within r e.a.2 = within r e.b.2
  · rw [area_mean ha, h]
    grind
  · obtain ⟨h1, h2, h3⟩ := within_between h
    obtain ⟨s, s0, s1, s2⟩ := at_part h3 h1
    obtain ⟨t, t0, t1, t2⟩ := at_part h3 h2
    have i1 := part_inside he s0 s1
    have i2 := part_inside he t0 t1
    rw [s2] at i1
    rw [t2] at i2
    exact area_unique ha (.left (by grind) (by grind))

theorem areas_append_inv {c r : Rat} {es fs : List Edge} {v : Rat} (h : Areas c r (es ++ fs) v) : ∃ a b, Areas c r es a ∧ Areas c r fs b ∧ v = a + b := by
  induction es generalizing v with
  | nil => exact ⟨0, v, .nil, h, by rw [Rat.zero_add]⟩
  | cons e es ih =>
    cases h with
    | cons he h =>
      obtain ⟨a, b, h1, h2, h3⟩ := ih h
      subst h3
      exact ⟨_, b, .cons he h1, h2, by grind⟩

theorem chain_height {w c r : Rat} (hc : w ≤ c) {p q : Point} {es : List Edge} (hch : Chain p q es) : (∀ e ∈ es, Inside w e) → ∀ {v : Rat},
    Areas c r es v → v = within r q.2 - within r p.2 := by
  induction hch with
  | nil =>
    intro _ v hv
    cases hv
    grind
  | cons _ ih =>
    intro he v hv
    cases hv with
    | cons ha hv =>
      have h1 := edge_height (he _ List.mem_cons_self) hc ha
      have h2 := ih (fun f hf => he f (List.mem_cons_of_mem _ hf)) hv
      dsimp only at h1
      rw [h1, h2]
      grind

theorem closed_height {w c r : Rat} (hc : w ≤ c) {es : List Edge} (hcl : Closed es) : (∀ e ∈ es, Inside w e) → ∀ {v : Rat}, Areas c r es v → v = 0 := by
  induction hcl with
  | nil =>
    intro _ v hv
    cases hv
    rfl
  | append hch _ ih =>
    intro he v hv
    obtain ⟨a, b, h1, h2, h3⟩ := areas_append_inv hv
    rw [h3, chain_height hc hch (fun e h => he e (List.mem_append_left _ h)) h1, ih (fun e h => he e (List.mem_append_right _ h)) h2]
    grind

/-! ## Pixels without edges -/

/-- A straight line of which no inner point is between the sides of the pixel is on one side. -/
theorem one_side {c xa xb : Rat} (h : ∀ t, 0 < t → t < 1 → ¬ (c < xa + t * (xb - xa) ∧ xa + t * (xb - xa) < c + 1)) :
    (xa ≤ c ∧ xb ≤ c) ∨ (c + 1 ≤ xa ∧ c + 1 ≤ xb) := by
  by_cases he : xa = xb
  · subst he
    have := h (1 / 2) (by decide +kernel) (by decide +kernel)
    grind
  · have hd : xb - xa ≠ 0 := by grind
    have hi : (xb - xa)⁻¹ * (xb - xa) = 1 := Rat.inv_mul_cancel _ hd
    have hit : ∀ m, c < m → m < c + 1 → (xa < m ∧ m < xb) ∨ (xb < m ∧ m < xa) → False := by
      intro m m0 m1 hm
      have e : xa + (m - xa) * (xb - xa)⁻¹ * (xb - xa) = m := by grind
      have hpos : 0 < (m - xa) * (xb - xa)⁻¹ ∧ 0 < (xb - m) * (xb - xa)⁻¹ := by
        rcases hm with hm | hm
        · have hp : 0 < (xb - xa)⁻¹ := Rat.inv_pos.2 (by grind)
          exact ⟨Rat.mul_pos (by grind) hp, Rat.mul_pos (by grind) hp⟩
        · have hp : 0 < (xa - xb)⁻¹ := Rat.inv_pos.2 (by grind)
          have e2 : (xb - xa)⁻¹ = -(xa - xb)⁻¹ := by
            have h2 : (xa - xb) * (xa - xb)⁻¹ = 1 := Rat.mul_inv_cancel _ (by grind)
            refine cancel hd ?_
            grind
          have p1 := Rat.mul_pos (a := xa - m) (by grind) hp
          have p2 := Rat.mul_pos (a := m - xb) (by grind) hp
          rw [e2]
          constructor <;> grind
      exact h _ hpos.1 (by grind) (by rw [e]; exact ⟨m0, m1⟩)
    by_cases h1 : xa < xb
    · by_cases h2 : max xa c < min xb (c + 1)
      · exact absurd (hit ((max xa c + min xb (c + 1)) / 2) (by grind) (by grind) (.inl (by grind))) id
      · grind
    · by_cases h2 : max xb c < min xa (c + 1)
      · exact absurd (hit ((max xb c + min xa (c + 1)) / 2) (by grind) (by grind) (.inr (by grind))) id
      · grind


theorem at_line (e : Edge) (y z : Rat) : e.at z = e.at y + (z - y) * ((e.b.1 - e.a.1) / (e.b.2 - e.a.2)) := by
  unfold Edge.at
  grind

theorem at_le {e : Edge} {y1 y2 y m : Rat} (h : (y1 ≤ y ∧ y ≤ y2) ∨ (y2 ≤ y ∧ y ≤ y1)) (h1 : e.at y1 ≤ m) (h2 : e.at y2 ≤ m) : e.at y ≤ m := by
  have e1 := at_line e y y1
  have e2 := at_line e y y2
  generalize (e.b.1 - e.a.1) / (e.b.2 - e.a.2) = q at *
  rcases Rat.le_total (a := 0) (b := q) with hq | hq
  · rcases h with h | h
    · have := Rat.mul_nonneg (a := y2 - y) (b := q) (by grind) hq
      grind
    · have := Rat.mul_nonneg (a := y1 - y) (b := q) (by grind) hq
      grind
  · rcases h with h | h
    · have := Rat.mul_nonneg (a := y - y1) (b := -q) (by grind) (by grind)
      grind
    · have := Rat.mul_nonneg (a := y - y2) (b := -q) (by grind) (by grind)
      grind

theorem le_at {e : Edge} {y1 y2 y m : Rat} (h : (y1 ≤ y ∧ y ≤ y2) ∨ (y2 ≤ y ∧ y ≤ y1)) (h1 : m ≤ e.at y1) (h2 : m ≤ e.at y2) : m ≤ e.at y := by
  have e1 := at_line e y y1
  have e2 := at_line e y y2
  generalize (e.b.1 - e.a.1) / (e.b.2 - e.a.2) = q at *
  rcases Rat.le_total (a := 0) (b := q) with hq | hq
  · rcases h with h | h
    · have := Rat.mul_nonneg (a := y - y1) (b := q) (by grind) hq
      grind
    · have := Rat.mul_nonneg (a := y - y2) (b := q) (by grind) hq
      grind
  · rcases h with h | h
    · have := Rat.mul_nonneg (a := y2 - y) (b := -q) (by grind) (by grind)
      grind
    · have := Rat.mul_nonneg (a := y1 - y) (b := -q) (by grind) (by grind)
      grind

theorem strip_side {c r : Rat} {e : Edge} (hm : Misses c r e) (hne : within r e.a.2 ≠ within r e.b.2) :
    (e.at (within r e.a.2) ≤ c ∧ e.at (within r e.b.2) ≤ c) ∨ (c + 1 ≤ e.at (within r e.a.2) ∧ c + 1 ≤ e.at (within r e.b.2)) := by
  obtain ⟨h1, h2, h3⟩ := within_between hne
  apply one_side
  intro t t0 t1
  have ra : r ≤ within r e.a.2 ∧ within r e.a.2 ≤ r + 1 := by unfold within; grind
  have rb : r ≤ within r e.b.2 ∧ within r e.b.2 ≤ r + 1 := by unfold within; grind
  generalize within r e.a.2 = ya at *
  generalize within r e.b.2 = yb at *
  have e1 : e.at ya + t * (e.at yb - e.at ya) = e.at (ya + t * (yb - ya)) := by
    rw [at_line e ya yb, at_line e ya (ya + t * (yb - ya))]
    grind
  rw [e1]
  have k : (ya < yb ∧ ya < ya + t * (yb - ya) ∧ ya + t * (yb - ya) < yb) ∨ (yb < ya ∧ yb < ya + t * (yb - ya) ∧ ya + t * (yb - ya) < ya) := by
    by_cases h : ya < yb
    · have p1 := Rat.mul_pos t0 (show 0 < yb - ya by grind)
      have p2 := Rat.mul_pos (show 0 < 1 - t by grind) (show 0 < yb - ya by grind)
      exact .inl ⟨h, by grind, by grind⟩
    · have p1 := Rat.mul_pos t0 (show 0 < ya - yb by grind)
      have p2 := Rat.mul_pos (show 0 < 1 - t by grind) (show 0 < ya - yb by grind)
      exact .inr ⟨by grind, by grind, by grind⟩
  generalize ya + t * (yb - ya) = y at *
  obtain ⟨s, s0, s1, s2⟩ := at_part (e := e) (y := y) h3 (by grind)
  have := hm s s0 s1
  rw [s2] at this
  dsimp only at this
  grind

/-- How far a vertex is from the step at the middle of the row, if it is in the row and left of the pixel. -/
def slack (c r : Rat) (p : Point) : Rat :=
  if r < p.2 ∧ p.2 < r + 1 ∧ p.1 ≤ c then p.2 - r - (if r + 1 / 2 < p.2 then 1 else 0) else 0

/-- What an edge adds to the winding number. -/
def turn (x y : Rat) (e : Edge) : Int :=
  if e.a.2 ≤ y ∧ y < e.b.2 ∧ e.at y < x then 1 else if e.b.2 ≤ y ∧ y < e.a.2 ∧ e.at y < x then -1 else 0

theorem edge_turn {c r : Rat} {e : Edge} (hm : Misses c r e) {v : Rat} (ha : EdgeArea c r e v) :
    v = (turn (c + 1 / 2) (r + 1 / 2) e : Rat) + (slack c r e.b - slack c r e.a) := by
  by_cases hw : within r e.a.2 = within r e.b.2
  · have hv : v = 0 := by
      rw [area_mean ha, hw]
      grind
    have ht : turn (c + 1 / 2) (r + 1 / 2) e = 0 := by
      unfold turn
      unfold within at hw
      rw [if_neg (by grind), if_neg (by grind)]
    rw [hv, ht]
    have hs : slack c r e.b = slack c r e.a := by
      by_cases hin : r < e.a.2 ∧ e.a.2 < r + 1
      · have hy : e.b.2 = e.a.2 := by
          unfold within at hw
          grind
        have hs := one_side (c := c) (xa := e.a.1) (xb := e.b.1) (by
          intro t t0 t1
          have := hm t (by grind) (by grind)
          unfold Edge.part at this
          dsimp only at this
          rw [hy] at this
          grind)
        unfold slack
        rw [hy]
        rcases hs with hs | hs
        · rw [if_pos (show r < e.a.2 ∧ e.a.2 < r + 1 ∧ e.b.1 ≤ c from ⟨hin.1, hin.2, hs.2⟩),
            if_pos (show r < e.a.2 ∧ e.a.2 < r + 1 ∧ e.a.1 ≤ c from ⟨hin.1, hin.2, hs.1⟩)]
        · rw [if_neg (by grind), if_neg (by grind)]
      · have hb : ¬ (r < e.b.2 ∧ e.b.2 < r + 1) := by
          unfold within at hw
          grind
        unfold slack
        rw [if_neg (by grind), if_neg (by grind)]
    rw [hs]
    have : ((0 : Int) : Rat) = 0 := rfl
    grind
  · obtain ⟨h1, h2, h3⟩ := within_between hw
    have va : r < e.a.2 → e.a.2 < r + 1 → e.a.1 = e.at (within r e.a.2) := by
      intro a b
      rw [show within r e.a.2 = e.a.2 by unfold within; grind, at_start]
    have vb : r < e.b.2 → e.b.2 < r + 1 → e.b.1 = e.at (within r e.b.2) := by
      intro a b
      rw [show within r e.b.2 = e.b.2 by unfold within; grind, at_end h3]
    have mid : e.a.2 ≤ r + 1 / 2 ∧ r + 1 / 2 < e.b.2 ∨ e.b.2 ≤ r + 1 / 2 ∧ r + 1 / 2 < e.a.2 →
        (within r e.a.2 ≤ r + 1 / 2 ∧ r + 1 / 2 ≤ within r e.b.2) ∨ (within r e.b.2 ≤ r + 1 / 2 ∧ r + 1 / 2 ≤ within r e.a.2) := by
      intro h
      unfold within
      grind
    rcases strip_side hm hw with hs | hs
    · have hv := area_unique ha (.left hs.1 hs.2)
      have sa : slack c r e.a = within r e.a.2 - r - (if r + 1 / 2 < e.a.2 then 1 else 0) := by
        unfold slack
        by_cases hin : r < e.a.2 ∧ e.a.2 < r + 1
        · rw [if_pos ⟨hin.1, hin.2, by rw [va hin.1 hin.2]; exact hs.1⟩]
          unfold within
          grind
        · rw [if_neg (by grind)]
          unfold within
          grind
      have sb : slack c r e.b = within r e.b.2 - r - (if r + 1 / 2 < e.b.2 then 1 else 0) := by
        unfold slack
        by_cases hin : r < e.b.2 ∧ e.b.2 < r + 1
        · rw [if_pos ⟨hin.1, hin.2, by rw [vb hin.1 hin.2]; exact hs.2⟩]
          unfold within
          grind
        · rw [if_neg (by grind)]
          unfold within
          grind
      have ht : (turn (c + 1 / 2) (r + 1 / 2) e : Rat) = (if r + 1 / 2 < e.b.2 then 1 else 0) - (if r + 1 / 2 < e.a.2 then 1 else 0) := by
        unfold turn
        by_cases k1 : r + 1 / 2 < e.a.2
        · by_cases k2 : r + 1 / 2 < e.b.2
          · rw [if_neg (by grind), if_neg (by grind), if_pos k1, if_pos k2]
            decide +kernel
          · have := at_le (e := e) (mid (.inr ⟨by grind, k1⟩)) hs.1 hs.2
            rw [if_neg (by grind), if_pos ⟨by grind, k1, by grind⟩, if_pos k1, if_neg k2]
            decide +kernel
        · by_cases k2 : r + 1 / 2 < e.b.2
          · have := at_le (e := e) (mid (.inl ⟨by grind, k2⟩)) hs.1 hs.2
            rw [if_pos ⟨by grind, k2, by grind⟩, if_neg k1, if_pos k2]
            decide +kernel
          · rw [if_neg (by grind), if_neg (by grind), if_neg k1, if_neg k2]
            decide +kernel
      rw [hv, sa, sb, ht]
      grind
    · have hv := area_unique ha (.right hs.1 hs.2)
      have sa : slack c r e.a = 0 := by
        unfold slack
        rw [if_neg]
        rintro ⟨a, b, d⟩
        rw [va a b] at d
        grind
      have sb : slack c r e.b = 0 := by
        unfold slack
        rw [if_neg]
        rintro ⟨a, b, d⟩
        rw [vb a b] at d
        grind
      have ht : turn (c + 1 / 2) (r + 1 / 2) e = 0 := by
        unfold turn
        rw [if_neg, if_neg]
        · rintro ⟨a, b, d⟩
          have := le_at (e := e) (mid (.inr ⟨a, b⟩)) hs.1 hs.2
          grind
        · rintro ⟨a, b, d⟩
          have := le_at (e := e) (mid (.inl ⟨a, b⟩)) hs.1 hs.2
          grind
      rw [hv, sa, sb, ht]
      decide +kernel

theorem winding_cons (x y : Rat) (e : Edge) (es : List Edge) : winding x y (e :: es) = turn x y e + winding x y es := rfl

theorem winding_append (x y : Rat) (es fs : List Edge) : winding x y (es ++ fs) = winding x y es + winding x y fs := by
  induction es with
  | nil =>
    rw [List.nil_append]
    show _ = 0 + _
    omega
  | cons e es ih =>
    rw [List.cons_append, winding_cons, winding_cons, ih]
    omega

theorem chain_turn {c r : Rat} {p q : Point} {es : List Edge} (hch : Chain p q es) : (∀ e ∈ es, Misses c r e) → ∀ {v : Rat}, Areas c r es v →
    v = (winding (c + 1 / 2) (r + 1 / 2) es : Rat) + (slack c r q - slack c r p) := by
  induction hch with
  | nil =>
    intro _ v hv
    cases hv
    have : ((winding (c + 1 / 2) (r + 1 / 2) [] : Int) : Rat) = 0 := rfl
    rw [this]
    grind
  | cons _ ih =>
    intro he v hv
    cases hv with
    | cons ha hv =>
      have h1 := edge_turn (he _ List.mem_cons_self) ha
      have h2 := ih (fun f hf => he f (List.mem_cons_of_mem _ hf)) hv
      dsimp only at h1
      rw [h1, h2, winding_cons, Rat.intCast_add]
      grind

theorem closed_turn {c r : Rat} {es : List Edge} (hcl : Closed es) : (∀ e ∈ es, Misses c r e) → ∀ {v : Rat}, Areas c r es v →
    v = (winding (c + 1 / 2) (r + 1 / 2) es : Rat) := by
  induction hcl with
  | nil =>
    intro _ v hv
    cases hv
    rfl
  | append hch _ ih =>
    intro he v hv
    obtain ⟨a, b, h1, h2, h3⟩ := areas_append_inv hv
    rw [h3, chain_turn hch (fun e h => he e (List.mem_append_left _ h)) h1, ih (fun e h => he e (List.mem_append_right _ h)) h2, winding_append,
      Rat.intCast_add]
    grind

end Verif.Raster
