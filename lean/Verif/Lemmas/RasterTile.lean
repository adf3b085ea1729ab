import Verif.Lemmas.Raster
/-!
# Lemmas for C130: curves, outlines and tiles
-/
namespace Verif.Raster
open Verif Verif.Spec.Raster
open Verif.Blend (bind i32)

/-! ## Chords -/

theorem bind_ok {α β : Type} (a : α) (f : α → Outcome β) : bind (.ok a) f = f a := rfl

theorem bind_assoc {α β γ : Type} (o : Outcome α) (f : α → Outcome β) (g : β → Outcome γ) : bind (bind o f) g = bind o fun a => bind (f a) g := by
  cases o <;> rfl

theorem lines_append (es fs : List (Point × Point)) (r : Raster) : lines (es ++ fs) r = bind (lines es r) fun r => lines fs r := by
  induction es generalizing r with
  | nil => rfl
  | cons e es ih =>
    show bind (line r e.1.1 e.1.2 e.2.1 e.2.2) (fun r => lines (es ++ fs) r) = _
    show _ = bind (bind (line r e.1.1 e.1.2 e.2.1 e.2.2) (fun r => lines es r)) fun r => lines fs r
    rw [bind_assoc]
    congr 1
    funext r
    exact ih r

/-- The chord from one point to the next. -/
def chord (f : Rat → Point) (n i : Nat) : Edge := ⟨f ((i : Rat) / n), f (((i : Rat) + 1) / n)⟩

theorem chords_eq (f : Rat → Point) (n : Nat) : chords f n = (List.range' 0 n).map (chord f n) := by
  rw [← List.range_eq_range']
  rfl

theorem steps_lines {f : Rat → Point} {n : Nat} : ∀ {k : Nat}, k ≤ n → ∀ r : Raster,
    steps f n k (f (((n - k : Nat) : Rat) / n)) r = lines (((List.range' (n - k) k).map (chord f n)).map ends) r := by
  intro k
  induction k with
  | zero => intro _ r; rfl
  | succ k ih =>
    intro hk r
    have e : n - (k + 1) + 1 = n - k := by omega
    rw [List.range'_succ, e]
    show bind _ _ = bind _ _
    have e2 : (((n - (k + 1) : Nat) : Rat) + 1) = ((n - k : Nat) : Rat) := by
      rw [← e, Rat.natCast_add]
      rfl
    have e3 : ends (chord f n (n - (k + 1))) = (f (((n - (k + 1) : Nat) : Rat) / n), f (((n - k : Nat) : Rat) / n)) := by
      unfold ends chord
      rw [e2]
    rw [e3]
    congr 1
    funext r
    exact ih (by omega) r

theorem steps_chords {f : Rat → Point} {n : Nat} {p : Point} (hp : f 0 = p) (r : Raster) :
    steps f n n p r = lines ((chords f n).map ends) r := by
  have := steps_lines (f := f) (Nat.le_refl n) r
  rw [Nat.sub_self] at this
  rw [chords_eq, ← this]
  have e : ((0 : Nat) : Rat) / n = 0 := by
    rw [Rat.div_def]
    exact Rat.zero_mul _
  rw [e, hp]

/-- An edge in the tile. -/
def shift (o : Point) (e : Edge) : Edge := ⟨move o e.a, move o e.b⟩

theorem chords_shift (o : Point) (f g : Rat → Point) (h : ∀ t, g t = move o (f t)) (n : Nat) : chords g n = (chords f n).map (shift o) := by
  rw [chords_eq, chords_eq, List.map_map]
  refine List.map_congr_left fun i _ => ?_
  unfold chord
  rw [h, h]
  rfl

theorem quad_shift (o a c b : Point) (t : Rat) : quadAt (move o a) (move o c) (move o b) t = move o (quadratic a c b t) := by
  unfold quadAt quadratic move
  dsimp only
  refine Prod.ext ?_ ?_ <;> dsimp only <;> grind

theorem cubic_shift (o a c d b : Point) (t : Rat) : cubicAt (move o a) (move o c) (move o d) (move o b) t = move o (cubical a c d b t) := by
  unfold cubicAt cubical move
  dsimp only
  refine Prod.ext ?_ ?_ <;> dsimp only <;> grind

theorem bend_shift (o a b c : Point) : bend (move o a) (move o b) (move o c) = bend a b c := by
  unfold bend move
  dsimp only
  grind

theorem quadSteps_shift (o a c b : Point) : quadSteps (move o a) (move o c) (move o b) = quadSteps a c b := by
  unfold quadSteps
  rw [bend_shift]

theorem cubicSteps_shift (o a c d b : Point) : cubicSteps (move o a) (move o c) (move o d) (move o b) = cubicSteps a c d b := by
  unfold cubicSteps
  rw [bend_shift, bend_shift]

theorem quadratic_zero (a c b : Point) : quadratic a c b 0 = a := by
  unfold quadratic
  refine Prod.ext ?_ ?_ <;> dsimp only <;> grind

theorem quadratic_one (a c b : Point) : quadratic a c b 1 = b := by
  unfold quadratic
  refine Prod.ext ?_ ?_ <;> dsimp only <;> grind

theorem cubical_zero (a c d b : Point) : cubical a c d b 0 = a := by
  unfold cubical
  refine Prod.ext ?_ ?_ <;> dsimp only <;> grind

theorem cubical_one (a c d b : Point) : cubical a c d b 1 = b := by
  unfold cubical
  refine Prod.ext ?_ ?_ <;> dsimp only <;> grind

theorem quad_lines (o a c b : Point) (r : Raster) :
    quad r (move o a) (move o c) (move o b) = lines (((chords (quadratic a c b) (quadSteps a c b)).map (shift o)).map ends) r := by
  unfold quad
  rw [quadSteps_shift, ← chords_shift o _ _ (quad_shift o a c b)]
  refine steps_chords ?_ r
  rw [quad_shift, quadratic_zero]

theorem cubic_lines (o a c d b : Point) (r : Raster) :
    cubic r (move o a) (move o c) (move o d) (move o b) = lines (((chords (cubical a c d b) (cubicSteps a c d b)).map (shift o)).map ends) r := by
  unfold cubic
  rw [cubicSteps_shift, ← chords_shift o _ _ (cubic_shift o a c d b)]
  refine steps_chords ?_ r
  rw [cubic_shift, cubical_zero]

/-! ## How far the chords are from the curve -/

theorem largest_max {p : Nat → Bool} : ∀ {m : Nat}, largest p m < m → p (largest p m + 1) = false := by
  intro m
  induction m with
  | zero => intro h; exact absurd h (Nat.not_lt_zero _)
  | succ m ih =>
    intro h
    rw [largest] at h ⊢
    split
    · rename_i hp
      rw [if_pos hp] at h
      omega
    · rename_i hp
      rw [if_neg hp] at h
      by_cases hm : largest p m < m
      · exact ih hm
      · have : largest p m = m := by omega
        rw [this]
        exact Bool.eq_false_iff.2 hp

theorem largest_le {p : Nat → Bool} : ∀ {m : Nat}, largest p m ≤ m := by
  intro m
  induction m with
  | zero => exact Nat.le_refl _
  | succ m ih =>
    rw [largest]
    split <;> omega

/-- The bounds of the terms of a chord. -/
theorem chord_terms {n i : Nat} (hi : i < n) {s : Rat} (h0 : 0 ≤ s) (h1 : s ≤ 1) : ∃ h : Rat, (n : Rat) * h = 1 ∧ 0 < h ∧
    ((i : Rat) + s) / n = i * h + s * h ∧ (i : Rat) / n = i * h ∧ ((i : Rat) + 1) / n = i * h + h ∧ 0 ≤ s * (1 - s) ∧ s * (1 - s) ≤ 1 / 4 ∧
    0 ≤ (i : Rat) * h ∧ (i : Rat) * h + h ≤ 1 := by
  have hn : (0 : Rat) < n := by
    have := Rat.natCast_lt_natCast.2 (show 0 < n by omega)
    exact this
  have hh : (n : Rat) * (n : Rat)⁻¹ = 1 := Rat.mul_inv_cancel _ (by grind)
  have hp : 0 < (n : Rat)⁻¹ := Rat.inv_pos.2 hn
  refine ⟨(n : Rat)⁻¹, hh, hp, ?_, ?_, ?_, Rat.mul_nonneg h0 (by grind), ?_, Rat.mul_nonneg Rat.natCast_nonneg (Rat.le_of_lt hp), ?_⟩
  · rw [Rat.div_def]; grind
  · rw [Rat.div_def]
  · rw [Rat.div_def]; grind
  · have : 0 ≤ (s - 1 / 2) * (s - 1 / 2) := by
      rcases Rat.le_total (a := 0) (b := s - 1 / 2) with h | h
      · exact Rat.mul_nonneg h h
      · have := Rat.mul_nonneg (a := 1 / 2 - s) (b := 1 / 2 - s) (by grind) (by grind)
        grind
    grind
  · have := cast_lt hi
    have := Rat.mul_nonneg (a := (n : Rat) - i - 1) (b := (n : Rat)⁻¹) (by grind) (Rat.le_of_lt hp)
    grind

theorem square_nonneg (x : Rat) : 0 ≤ x * x := by
  rcases Rat.le_total (a := 0) (b := x) with h | h
  · exact Rat.mul_nonneg h h
  · have := Rat.mul_nonneg (a := -x) (b := -x) (by grind) (by grind)
    grind

theorem mul_le {a b c d : Rat} (h0 : 0 ≤ a) (h1 : a ≤ b) (h2 : 0 ≤ c) (h3 : c ≤ d) : a * c ≤ b * d := by
  have x1 := Rat.mul_nonneg (a := b - a) (b := d) (by grind) (by grind)
  have x2 := Rat.mul_nonneg (a := a) (b := d - c) h0 (by grind)
  grind

/-- `k² D` with `k ≤ m / 4 · h²` and `D ≤ (4/5 n²)²`. -/
theorem small {k m h n D : Rat} (hn : n * h = 1) (k0 : 0 ≤ k) (hk : k ≤ m / 4) (hD0 : 0 ≤ D) (hD : D ≤ (4 / 5 * n ^ 2) ^ 2) :
    (k * h ^ 2) ^ 2 * D ≤ m ^ 2 / 25 := by
  have h4 : 0 ≤ (h * h) * (h * h) := square_nonneg _
  have e1 : k * k ≤ m / 4 * (m / 4) := mul_le k0 hk k0 hk
  have e2 : (h * h) * (h * h) * D ≤ (h * h) * (h * h) * ((4 / 5 * n ^ 2) ^ 2) := mul_le h4 (Rat.le_refl) hD0 hD
  have e3 : (h * h) * (h * h) * ((4 / 5 * n ^ 2) ^ 2) = 16 / 25 * ((n * h) * (n * h)) * ((n * h) * (n * h)) := by grind
  rw [e3, hn] at e2
  have e4 := mul_le (square_nonneg k) e1 (Rat.mul_nonneg h4 hD0) e2
  grind

theorem bend_nonneg (a b c : Point) : 0 ≤ bend a b c := by
  unfold bend
  have h1 := square_nonneg (a.1 - 2 * b.1 + c.1)
  have h2 := square_nonneg (a.2 - 2 * b.2 + c.2)
  grind

theorem quad_fine (a c b : Point) : 1 ≤ quadSteps a c b ∧ (quadSteps a c b = 64 ∨ Fine (1 / 25) (quadratic a c b) (quadSteps a c b)) := by
  refine ⟨by unfold quadSteps; omega, ?_⟩
  by_cases hl : largest (fun k => decide ((4 / 5 * (k : Rat) ^ 2) ^ 2 ≤ bend a c b)) 63 < 63
  · refine .inr ?_
    have hp := largest_max hl
    have hn : quadSteps a c b = largest (fun k => decide ((4 / 5 * (k : Rat) ^ 2) ^ 2 ≤ bend a c b)) 63 + 1 := by
      unfold quadSteps
      omega
    rw [← hn] at hp
    have hb : bend a c b ≤ (4 / 5 * (quadSteps a c b : Rat) ^ 2) ^ 2 := by
      have := of_decide_eq_false hp
      grind
    generalize quadSteps a c b = n at hb
    intro i s hi h0 h1
    obtain ⟨h, e1, _, e2, e3, e4, e5, e6, _⟩ := chord_terms hi h0 h1
    have key := small e1 e5 (m := 1) (by grind) (bend_nonneg a c b) hb
    rw [e2, e3, e4]
    refine Rat.le_trans (b := ((s * (1 - s)) * h ^ 2) ^ 2 * bend a c b) ?_ (by grind)
    unfold gap Edge.part quadratic bend
    dsimp only
    generalize (i : Rat) * h = u
    have x1 : ∀ p q r : Rat, (1 - (u + s * h)) ^ 2 * p + 2 * (1 - (u + s * h)) * (u + s * h) * q + (u + s * h) ^ 2 * r -
        ((1 - u) ^ 2 * p + 2 * (1 - u) * u * q + u ^ 2 * r + s * ((1 - (u + h)) ^ 2 * p + 2 * (1 - (u + h)) * (u + h) * q + (u + h) ^ 2 * r -
          ((1 - u) ^ 2 * p + 2 * (1 - u) * u * q + u ^ 2 * r))) = - (s * (1 - s) * h ^ 2 * (p - 2 * q + r)) := by
      intro p q r
      grind
    rw [x1, x1]
    grind
  · refine .inl ?_
    have := largest_le (p := fun k => decide ((4 / 5 * (k : Rat) ^ 2) ^ 2 ≤ bend a c b)) (m := 63)
    unfold quadSteps
    omega

theorem cubic_fine (a c d b : Point) : 1 ≤ cubicSteps a c d b ∧ (cubicSteps a c d b = 96 ∨ Fine (9 / 25) (cubical a c d b) (cubicSteps a c d b)) := by
  refine ⟨by unfold cubicSteps; omega, ?_⟩
  generalize hP : (fun k : Nat =>
    let m := (4 / 5 * (k : Rat) ^ 2) ^ 2 - bend a c d - bend c d b
    decide (m ≤ 0 ∨ m ^ 2 ≤ 4 * bend a c d * bend c d b)) = P
  have hn : cubicSteps a c d b = largest P 95 + 1 := by
    unfold cubicSteps
    rw [hP]
    omega
  by_cases hl : largest P 95 < 95
  · refine .inr ?_
    have hp := largest_max hl
    rw [← hn] at hp
    have hb : bend a c d + bend c d b ≤ (4 / 5 * (cubicSteps a c d b : Rat) ^ 2) ^ 2 := by
      rw [← hP] at hp
      have := of_decide_eq_false hp
      grind
    generalize cubicSteps a c d b = n at hb
    intro i s hi h0 h1
    obtain ⟨h, e1, hp, e2, e3, e4, e5, e6, e7, e8⟩ := chord_terms hi h0 h1
    have ha := bend_nonneg a c d
    have hd := bend_nonneg c d b
    have key := small e1 (k := 3 * (s * (1 - s))) (by grind) (m := 3) (by grind) (D := bend a c d + bend c d b) (by grind) hb
    rw [e2, e3, e4]
    refine Rat.le_trans (b := (3 * (s * (1 - s)) * h ^ 2) ^ 2 * (bend a c d + bend c d b)) ?_ (by grind)
    generalize (i : Rat) * h = u at *
    have hv0 : 0 ≤ u + h * (1 + s) / 3 := by
      have := Rat.mul_nonneg (a := h) (b := 1 + s) (Rat.le_of_lt hp) (by grind)
      grind
    have hv1 : u + h * (1 + s) / 3 ≤ 1 := by
      have := Rat.mul_nonneg (a := h) (b := 1 - s) (Rat.le_of_lt hp) (by grind)
      grind
    have x1 : ∀ p q r w : Rat, (1 - (u + s * h)) ^ 3 * p + 3 * (1 - (u + s * h)) ^ 2 * (u + s * h) * q + 3 * (1 - (u + s * h)) * (u + s * h) ^ 2 * r + (u + s * h) ^ 3 * w -
        ((1 - u) ^ 3 * p + 3 * (1 - u) ^ 2 * u * q + 3 * (1 - u) * u ^ 2 * r + u ^ 3 * w +
          s * ((1 - (u + h)) ^ 3 * p + 3 * (1 - (u + h)) ^ 2 * (u + h) * q + 3 * (1 - (u + h)) * (u + h) ^ 2 * r + (u + h) ^ 3 * w -
          ((1 - u) ^ 3 * p + 3 * (1 - u) ^ 2 * u * q + 3 * (1 - u) * u ^ 2 * r + u ^ 3 * w))) =
        - (3 * (s * (1 - s)) * h ^ 2 * ((1 - (u + h * (1 + s) / 3)) * (p - 2 * q + r) + (u + h * (1 + s) / 3) * (q - 2 * r + w))) := by
      intro p q r w
      grind
    unfold gap Edge.part cubical
    dsimp only
    rw [x1, x1]
    generalize hv : u + h * (1 + s) / 3 = v at *
    generalize 3 * (s * (1 - s)) * h ^ 2 = k
    have hw := Rat.mul_nonneg (a := v) (b := 1 - v) hv0 (by grind)
    unfold bend at *
    generalize a.1 - 2 * c.1 + d.1 = A1 at *
    generalize a.2 - 2 * c.2 + d.2 = A2 at *
    generalize c.1 - 2 * d.1 + b.1 = B1 at *
    generalize c.2 - 2 * d.2 + b.2 = B2 at *
    have y1 := Rat.mul_nonneg hw (square_nonneg (A1 - B1))
    have y2 := Rat.mul_nonneg hw (square_nonneg (A2 - B2))
    have y3 : ((1 - v) * A1 + v * B1) ^ 2 + ((1 - v) * A2 + v * B2) ^ 2 ≤ (1 - v) * (A1 ^ 2 + A2 ^ 2) + v * (B1 ^ 2 + B2 ^ 2) := by grind
    have y4 := Rat.mul_nonneg hv0 ha
    have y5 := Rat.mul_nonneg (a := 1 - v) (by grind) hd
    have y6 : ((1 - v) * A1 + v * B1) ^ 2 + ((1 - v) * A2 + v * B2) ^ 2 ≤ (A1 ^ 2 + A2 ^ 2) + (B1 ^ 2 + B2 ^ 2) := by grind
    have y7 := Rat.mul_nonneg (square_nonneg k) (b := (A1 ^ 2 + A2 ^ 2) + (B1 ^ 2 + B2 ^ 2) - (((1 - v) * A1 + v * B1) ^ 2 + ((1 - v) * A2 + v * B2) ^ 2)) (by grind)
    grind
  · refine .inl ?_
    have := largest_le (p := P) (m := 95)
    omega

/-! ## Outlines -/

/-- Within the bounds. -/
def InBox (l t r b : Rat) (p : Point) : Prop := l ≤ p.1 ∧ p.1 ≤ r ∧ t ≤ p.2 ∧ p.2 ≤ b

/-- An edge within the bounds. -/
def EdgeIn (l t r b : Rat) (e : Edge) : Prop := InBox l t r b e.a ∧ InBox l t r b e.b

theorem quadratic_le {p q r m t : Rat} (h0 : 0 ≤ t) (h1 : t ≤ 1) (hp : p ≤ m) (hq : q ≤ m) (hr : r ≤ m) :
    (1 - t) ^ 2 * p + 2 * (1 - t) * t * q + t ^ 2 * r ≤ m := by
  have a1 := Rat.mul_nonneg (square_nonneg (1 - t)) (b := m - p) (by grind)
  have a2 := Rat.mul_nonneg (Rat.mul_nonneg (a := 1 - t) (by grind) h0) (b := m - q) (by grind)
  have a3 := Rat.mul_nonneg (square_nonneg t) (b := m - r) (by grind)
  grind

theorem le_quadratic {p q r m t : Rat} (h0 : 0 ≤ t) (h1 : t ≤ 1) (hp : m ≤ p) (hq : m ≤ q) (hr : m ≤ r) :
    m ≤ (1 - t) ^ 2 * p + 2 * (1 - t) * t * q + t ^ 2 * r := by
  have := quadratic_le h0 h1 (p := -p) (q := -q) (r := -r) (m := -m) (by grind) (by grind) (by grind)
  grind

theorem cubical_le {p q r w m t : Rat} (h0 : 0 ≤ t) (h1 : t ≤ 1) (hp : p ≤ m) (hq : q ≤ m) (hr : r ≤ m) (hw : w ≤ m) :
    (1 - t) ^ 3 * p + 3 * (1 - t) ^ 2 * t * q + 3 * (1 - t) * t ^ 2 * r + t ^ 3 * w ≤ m := by
  have b1 : 0 ≤ 1 - t := by grind
  have a1 := Rat.mul_nonneg (Rat.mul_nonneg (square_nonneg (1 - t)) b1) (b := m - p) (by grind)
  have a2 := Rat.mul_nonneg (Rat.mul_nonneg (square_nonneg (1 - t)) h0) (b := m - q) (by grind)
  have a3 := Rat.mul_nonneg (Rat.mul_nonneg (square_nonneg t) b1) (b := m - r) (by grind)
  have a4 := Rat.mul_nonneg (Rat.mul_nonneg (square_nonneg t) h0) (b := m - w) (by grind)
  grind

theorem le_cubical {p q r w m t : Rat} (h0 : 0 ≤ t) (h1 : t ≤ 1) (hp : m ≤ p) (hq : m ≤ q) (hr : m ≤ r) (hw : m ≤ w) :
    m ≤ (1 - t) ^ 3 * p + 3 * (1 - t) ^ 2 * t * q + 3 * (1 - t) * t ^ 2 * r + t ^ 3 * w := by
  have := cubical_le h0 h1 (p := -p) (q := -q) (r := -r) (w := -w) (m := -m) (by grind) (by grind) (by grind) (by grind)
  grind

theorem quadratic_box {l t r b : Rat} {p c q : Point} (hp : InBox l t r b p) (hc : InBox l t r b c) (hq : InBox l t r b q) {u : Rat} (h0 : 0 ≤ u) (h1 : u ≤ 1) :
    InBox l t r b (quadratic p c q u) :=
  ⟨le_quadratic h0 h1 hp.1 hc.1 hq.1, quadratic_le h0 h1 hp.2.1 hc.2.1 hq.2.1, le_quadratic h0 h1 hp.2.2.1 hc.2.2.1 hq.2.2.1,
    quadratic_le h0 h1 hp.2.2.2 hc.2.2.2 hq.2.2.2⟩

theorem cubical_box {l t r b : Rat} {p c d q : Point} (hp : InBox l t r b p) (hc : InBox l t r b c) (hd : InBox l t r b d) (hq : InBox l t r b q) {u : Rat}
    (h0 : 0 ≤ u) (h1 : u ≤ 1) : InBox l t r b (cubical p c d q u) :=
  ⟨le_cubical h0 h1 hp.1 hc.1 hd.1 hq.1, cubical_le h0 h1 hp.2.1 hc.2.1 hd.2.1 hq.2.1,
    le_cubical h0 h1 hp.2.2.1 hc.2.2.1 hd.2.2.1 hq.2.2.1, cubical_le h0 h1 hp.2.2.2 hc.2.2.2 hd.2.2.2 hq.2.2.2⟩

theorem chords_box {l t r b : Rat} {f : Rat → Point} (h : ∀ u, 0 ≤ u → u ≤ 1 → InBox l t r b (f u)) (n : Nat) : ∀ e ∈ chords f n, EdgeIn l t r b e := by
  intro e he
  obtain ⟨i, hi, rfl⟩ := List.mem_map.1 he
  obtain ⟨k, _, hk, _, e1, e2, _, _, e3, e4⟩ := chord_terms (List.mem_range.1 hi) (s := 0) (by decide +kernel) (by decide +kernel)
  exact ⟨h _ (by grind) (by grind), h _ (by grind) (by grind)⟩

theorem chain_append {p q s : Point} {es fs : List Edge} (h1 : Chain p q es) (h2 : Chain q s fs) : Chain p s (es ++ fs) := by
  induction h1 with
  | nil => exact h2
  | cons _ ih => exact .cons (ih h2)

theorem chords_chain {f : Rat → Point} {n : Nat} : ∀ {k i : Nat}, Chain (f ((i : Rat) / n)) (f (((i + k : Nat) : Rat) / n)) ((List.range' i k).map (chord f n)) := by
  intro k
  induction k with
  | zero => intro i; exact .nil
  | succ k ih =>
    intro i
    rw [List.range'_succ]
    refine .cons ?_
    have := ih (i := i + 1)
    have e : i + 1 + k = i + (k + 1) := by omega
    rw [e] at this
    rw [Rat.natCast_add] at this
    exact this

theorem curve_chain {f : Rat → Point} {n : Nat} (hn : 1 ≤ n) {p q : Point} (h0 : f 0 = p) (h1 : f 1 = q) : Chain p q (chords f n) := by
  have := chords_chain (f := f) (n := n) (k := n) (i := 0)
  rw [chords_eq]
  have e0 : ((0 : Nat) : Rat) / n = 0 := by
    rw [Rat.div_def]
    exact Rat.zero_mul _
  have e1 : ((0 + n : Nat) : Rat) / n = 1 := by
    rw [Nat.zero_add, Rat.div_def]
    have : ((1 : Nat) : Rat) ≤ n := Rat.natCast_le_natCast.2 hn
    have e : ((1 : Nat) : Rat) = 1 := rfl
    exact Rat.mul_inv_cancel _ (by grind)
  rw [e0, e1, h0, h1] at this
  exact this

/-- Where the pen is. -/
def penOf (o : Point) : Option (Point × Point) → Pen
  | none => ⟨(0, 0), (0, 0), false⟩
  | some (s, p) => ⟨move o s, move o p, true⟩

/-- The rest of a contour, and further contours. -/
def Rest : Option (Point × Point) → List Edge → Prop
  | none, es => Closed es
  | some (s, p), es => ∃ cs fs, es = cs ++ fs ∧ Chain p s cs ∧ Closed fs

/-- The points of the place are within. -/
def StateIn (l t r b : Rat) : Option (Point × Point) → Prop
  | none => True
  | some (s, p) => InBox l t r b s ∧ InBox l t r b p

theorem rest_closed {q : Point} {es : List Edge} (h : Rest (some (q, q)) es) : Closed es := by
  obtain ⟨cs, fs, h1, h2, h3⟩ := h
  rw [h1]
  exact .append h2 h3

theorem rest_cons {s p q : Point} {ds es : List Edge} (hd : Chain p q ds) (h : Rest (some (s, q)) es) : Rest (some (s, p)) (ds ++ es) := by
  obtain ⟨cs, fs, h1, h2, h3⟩ := h
  exact ⟨ds ++ cs, fs, by rw [h1, List.append_assoc], chain_append hd h2, h3⟩

theorem line_shift (o p q : Point) (r : Raster) : line r (move o p).1 (move o p).2 (move o q).1 (move o q).2 = lines (([⟨p, q⟩].map (shift o)).map ends) r := by
  show _ = bind _ _
  show _ = bind (line r (move o p).1 (move o p).2 (move o q).1 (move o q).2) fun r => lines [] r
  cases line r (move o p).1 (move o p).2 (move o q).1 (move o q).2 <;> rfl

theorem join (o : Point) (ds es : List Edge) (r : Raster) :
    lines (((ds ++ es).map (shift o)).map ends) r = bind (lines ((ds.map (shift o)).map ends) r) fun r => lines ((es.map (shift o)).map ends) r := by
  rw [List.map_append, List.map_append, lines_append]

theorem drawAll_spec (o : Point) {l t r b : Rat} : ∀ {segs : List Seg} {st : Option (Point × Point)}, (∀ s ∈ segs, ∀ p ∈ s.points, InBox l t r b p) →
    StateIn l t r b st → (st = none → ∀ s, segs.head? = some s → ∃ p, s = .moveTo p) →
    ∃ es, Outline st segs es ∧ (∀ g, drawAll o segs (penOf o st) g = lines ((es.map (shift o)).map ends) g) ∧ (∀ e ∈ es, EdgeIn l t r b e) ∧ Rest st es := by
  intro segs
  induction segs with
  | nil =>
    intro st _ hs _
    match st with
    | none => exact ⟨[], .empty, fun _ => rfl, fun _ h => absurd h List.not_mem_nil, .nil⟩
    | some (s, p) =>
      refine ⟨[⟨p, s⟩], .ending, fun g => ?_, ?_, [⟨p, s⟩], [], rfl, .cons .nil, .nil⟩
      · rw [← line_shift]
        rfl
      · intro e he
        rw [List.mem_singleton.1 he]
        exact ⟨hs.2, hs.1⟩
  | cons sg ss ih =>
    intro st hp hs hm
    have hpt : ∀ s ∈ ss, ∀ p ∈ s.points, InBox l t r b p := fun s h => hp s (List.mem_cons_of_mem _ h)
    have hp0 : ∀ p ∈ sg.points, InBox l t r b p := hp sg List.mem_cons_self
    match st, sg with
    | none, .moveTo q =>
      have hq := hp0 q List.mem_cons_self
      obtain ⟨es, a1, a2, a3, a4⟩ := ih (st := some (q, q)) hpt ⟨hq, hq⟩ (fun h => nomatch h)
      exact ⟨es, .first a1, fun g => a2 g, a3, rest_closed a4⟩
    | none, .lineTo _ => obtain ⟨_, h⟩ := hm rfl _ rfl; exact nomatch h
    | none, .quadTo _ _ => obtain ⟨_, h⟩ := hm rfl _ rfl; exact nomatch h
    | none, .cubicTo _ _ _ => obtain ⟨_, h⟩ := hm rfl _ rfl; exact nomatch h
    | none, .close => obtain ⟨_, h⟩ := hm rfl _ rfl; exact nomatch h
    | some (s, p), .moveTo q =>
      have hq := hp0 q List.mem_cons_self
      obtain ⟨es, a1, a2, a3, a4⟩ := ih (st := some (q, q)) hpt ⟨hq, hq⟩ (fun h => nomatch h)
      refine ⟨⟨p, s⟩ :: es, .next a1, fun g => ?_, ?_, [⟨p, s⟩], es, rfl, .cons .nil, rest_closed a4⟩
      · rw [show (⟨p, s⟩ : Edge) :: es = [⟨p, s⟩] ++ es from rfl, join, ← line_shift]
        show bind (bind _ _) _ = _
        rw [bind_assoc]
        show bind (line g (move o p).1 (move o p).2 (move o s).1 (move o s).2) _ = _
        congr 1
        funext g
        exact a2 g
      · intro e he
        rcases List.mem_cons.1 he with rfl | he
        · exact ⟨hs.2, hs.1⟩
        · exact a3 e he
    | some (s, p), .lineTo q =>
      have hq := hp0 q List.mem_cons_self
      obtain ⟨es, a1, a2, a3, a4⟩ := ih (st := some (s, q)) hpt ⟨hs.1, hq⟩ (fun h => nomatch h)
      refine ⟨⟨p, q⟩ :: es, .straight a1, fun g => ?_, ?_, rest_cons (ds := [⟨p, q⟩]) (.cons .nil) a4⟩
      · rw [show (⟨p, q⟩ : Edge) :: es = [⟨p, q⟩] ++ es from rfl, join, ← line_shift]
        show bind (bind _ _) _ = _
        rw [bind_assoc]
        show bind (line g (move o p).1 (move o p).2 (move o q).1 (move o q).2) _ = _
        congr 1
        funext g
        exact a2 g
      · intro e he
        rcases List.mem_cons.1 he with rfl | he
        · exact ⟨hs.2, hq⟩
        · exact a3 e he
    | some (s, p), .quadTo c q =>
      have hc := hp0 c List.mem_cons_self
      have hq := hp0 q (List.mem_cons_of_mem _ List.mem_cons_self)
      obtain ⟨es, a1, a2, a3, a4⟩ := ih (st := some (s, q)) hpt ⟨hs.1, hq⟩ (fun h => nomatch h)
      obtain ⟨n1, n2⟩ := quad_fine p c q
      refine ⟨_, .quad _ n1 n2 a1, fun g => ?_, ?_, rest_cons (curve_chain n1 (quadratic_zero p c q) (quadratic_one p c q)) a4⟩
      · rw [join, ← quad_lines]
        show bind (bind _ _) _ = _
        rw [bind_assoc]
        show bind (quad g (move o p) (move o c) (move o q)) _ = _
        congr 1
        funext g
        exact a2 g
      · intro e he
        rcases List.mem_append.1 he with he | he
        · exact chords_box (fun u h0 h1 => quadratic_box hs.2 hc hq h0 h1) _ e he
        · exact a3 e he
    | some (s, p), .cubicTo c d q =>
      have hc := hp0 c List.mem_cons_self
      have hd := hp0 d (List.mem_cons_of_mem _ List.mem_cons_self)
      have hq := hp0 q (List.mem_cons_of_mem _ (List.mem_cons_of_mem _ List.mem_cons_self))
      obtain ⟨es, a1, a2, a3, a4⟩ := ih (st := some (s, q)) hpt ⟨hs.1, hq⟩ (fun h => nomatch h)
      obtain ⟨n1, n2⟩ := cubic_fine p c d q
      refine ⟨_, .cubic _ n1 n2 a1, fun g => ?_, ?_, rest_cons (curve_chain n1 (cubical_zero p c d q) (cubical_one p c d q)) a4⟩
      · rw [join, ← cubic_lines]
        show bind (bind _ _) _ = _
        rw [bind_assoc]
        show bind (cubic g (move o p) (move o c) (move o d) (move o q)) _ = _
        congr 1
        funext g
        exact a2 g
      · intro e he
        rcases List.mem_append.1 he with he | he
        · exact chords_box (fun u h0 h1 => cubical_box hs.2 hc hd hq h0 h1) _ e he
        · exact a3 e he
    | some (s, p), .close =>
      obtain ⟨es, a1, a2, a3, a4⟩ := ih (st := some (s, s)) hpt ⟨hs.1, hs.1⟩ (fun h => nomatch h)
      refine ⟨⟨p, s⟩ :: es, .back a1, fun g => ?_, ?_, rest_cons (ds := [⟨p, s⟩]) (.cons .nil) a4⟩
      · rw [show (⟨p, s⟩ : Edge) :: es = [⟨p, s⟩] ++ es from rfl, join, ← line_shift]
        show bind (bind _ _) _ = _
        rw [bind_assoc]
        show bind (line g (move o p).1 (move o p).2 (move o s).1 (move o s).2) _ = _
        congr 1
        funext g
        exact a2 g
      · intro e he
        rcases List.mem_cons.1 he with rfl | he
        · exact ⟨hs.2, hs.1⟩
        · exact a3 e he

/-! ## Places of edges in the frame and in the tile -/

theorem at_shift (o : Point) (e : Edge) (y : Rat) : (shift o e).at (y - o.2) = e.at y - o.1 := by
  unfold Edge.at shift move
  dsimp only
  have e1 : e.b.1 - o.1 - (e.a.1 - o.1) = e.b.1 - e.a.1 := by grind
  have e2 : e.b.2 - o.2 - (e.a.2 - o.2) = e.b.2 - e.a.2 := by grind
  rw [e1, e2]
  grind

theorem within_shift (r y k : Rat) : within r (y - k) = within (r + k) y - k := by
  unfold within
  grind

theorem edge_shift {c r : Rat} {o : Point} {e : Edge} {v : Rat} (h : EdgeArea c r (shift o e) v) : EdgeArea (c + o.1) (r + o.2) e v := by
  unfold EdgeArea at *
  have e1 : (shift o e).a.2 = e.a.2 - o.2 := rfl
  have e2 : (shift o e).b.2 = e.b.2 - o.2 := rfl
  rw [e1, e2, within_shift, within_shift, at_shift, at_shift] at h
  exact area_cast (area_shift o.1 h) (by grind) (by grind) (by grind) rfl

theorem areas_shift {c r : Rat} {o : Point} : ∀ {es : List Edge} {v : Rat}, Areas c r (es.map (shift o)) v → Areas (c + o.1) (r + o.2) es v := by
  intro es
  induction es with
  | nil =>
    intro v h
    cases h
    exact .nil
  | cons e es ih =>
    intro v h
    cases h with
    | cons h1 h2 => exact .cons (edge_shift h1) (ih h2)

theorem chain_shift (o : Point) {p q : Point} {es : List Edge} (h : Chain p q es) : Chain (move o p) (move o q) (es.map (shift o)) := by
  induction h with
  | nil => exact .nil
  | cons _ ih => exact .cons ih

theorem closed_shift (o : Point) {es : List Edge} (h : Closed es) : Closed (es.map (shift o)) := by
  induction h with
  | nil => exact .nil
  | append h1 _ ih =>
    rw [List.map_append]
    exact .append (chain_shift o h1) ih

/-! ## Outside the tile -/

theorem at_box {lo hi : Rat} {e : Edge} (ha : lo ≤ e.a.1 ∧ e.a.1 ≤ hi) (hb : lo ≤ e.b.1 ∧ e.b.1 ≤ hi) {y : Rat} (hne : e.a.2 ≠ e.b.2)
    (h : (e.a.2 ≤ y ∧ y ≤ e.b.2) ∨ (e.b.2 ≤ y ∧ y ≤ e.a.2)) : lo ≤ e.at y ∧ e.at y ≤ hi := by
  have s1 := at_start e
  have s2 := at_end hne
  exact ⟨le_at (y1 := e.a.2) (y2 := e.b.2) h (by rw [s1]; exact ha.1) (by rw [s2]; exact hb.1),
    at_le (y1 := e.a.2) (y2 := e.b.2) h (by rw [s1]; exact ha.2) (by rw [s2]; exact hb.2)⟩

theorem edge_flat {c r : Rat} {e : Edge} (h : within r e.a.2 = within r e.b.2) {v : Rat} (ha : EdgeArea c r e v) : v = 0 := by
  unfold EdgeArea at ha
  rw [h] at ha
  exact area_unique (area_cast ha rfl rfl (by grind) rfl) (area_zero _ _)

theorem edge_right {c r k : Rat} {e : Edge} (hc : k ≤ c) (he : e.a.1 ≤ k ∧ e.b.1 ≤ k) {v : Rat} (ha : EdgeArea c r e v) :
    v = within r e.b.2 - within r e.a.2 := by
  by_cases h : within r e.a.2 = within r e.b.2
  · rw [edge_flat h ha, h]
    grind
  · obtain ⟨h1, h2⟩ := within_between h
    have hne : e.a.2 ≠ e.b.2 := by
      intro hh
      rw [hh] at h
      exact h rfl
    have lo : ∃ lo, lo ≤ e.a.1 ∧ lo ≤ e.b.1 := ⟨min e.a.1 e.b.1, by grind, by grind⟩
    obtain ⟨lo, l1, l2⟩ := lo
    have x1 := at_box ⟨l1, he.1⟩ ⟨l2, he.2⟩ hne h1
    have x2 := at_box ⟨l1, he.1⟩ ⟨l2, he.2⟩ hne h2.1
    exact area_unique ha (.left (by grind) (by grind))

theorem edge_left {c r k : Rat} {e : Edge} (hc : c + 1 ≤ k) (he : k ≤ e.a.1 ∧ k ≤ e.b.1) {v : Rat} (ha : EdgeArea c r e v) : v = 0 := by
  by_cases h : within r e.a.2 = within r e.b.2
  · exact edge_flat h ha
  · obtain ⟨h1, h2⟩ := within_between h
    have hne : e.a.2 ≠ e.b.2 := by
      intro hh
      rw [hh] at h
      exact h rfl
    have hi : ∃ hi, e.a.1 ≤ hi ∧ e.b.1 ≤ hi := ⟨max e.a.1 e.b.1, by grind, by grind⟩
    obtain ⟨hi, l1, l2⟩ := hi
    have x1 := at_box ⟨he.1, l1⟩ ⟨he.2, l2⟩ hne h1
    have x2 := at_box ⟨he.1, l1⟩ ⟨he.2, l2⟩ hne h2.1
    exact area_unique ha (.right (by grind) (by grind))

theorem areas_left {c r k : Rat} (hc : c + 1 ≤ k) : ∀ {es : List Edge}, (∀ e ∈ es, k ≤ e.a.1 ∧ k ≤ e.b.1) → ∀ {v : Rat}, Areas c r es v → v = 0 := by
  intro es
  induction es with
  | nil =>
    intro _ v h
    cases h
    rfl
  | cons e es ih =>
    intro he v h
    cases h with
    | cons h1 h2 =>
      rw [edge_left hc (he e List.mem_cons_self) h1, ih (fun f hf => he f (List.mem_cons_of_mem _ hf)) h2]
      decide +kernel

theorem areas_beyond {c r t b : Rat} (hc : r + 1 ≤ t ∨ b ≤ r) : ∀ {es : List Edge}, (∀ e ∈ es, t ≤ e.a.2 ∧ e.a.2 ≤ b ∧ t ≤ e.b.2 ∧ e.b.2 ≤ b) → ∀ {v : Rat},
    Areas c r es v → v = 0 := by
  intro es
  induction es with
  | nil =>
    intro _ v h
    cases h
    rfl
  | cons e es ih =>
    intro he v h
    cases h with
    | cons h1 h2 =>
      have := he e List.mem_cons_self
      have hw : within r e.a.2 = within r e.b.2 := by
        unfold within
        grind
      rw [edge_flat hw h1, ih (fun f hf => he f (List.mem_cons_of_mem _ hf)) h2]
      decide +kernel

theorem chain_right {c r k : Rat} (hc : k ≤ c) {p q : Point} {es : List Edge} (hch : Chain p q es) : (∀ e ∈ es, e.a.1 ≤ k ∧ e.b.1 ≤ k) → ∀ {v : Rat},
    Areas c r es v → v = within r q.2 - within r p.2 := by
  induction hch with
  | nil =>
    intro _ v h
    cases h
    grind
  | cons _ ih =>
    intro he v h
    cases h with
    | cons h1 h2 =>
      rw [edge_right hc (he _ List.mem_cons_self) h1, ih (fun f hf => he f (List.mem_cons_of_mem _ hf)) h2]
      dsimp only
      grind

theorem areas_right {c r k : Rat} (hc : k ≤ c) {es : List Edge} (hcl : Closed es) : (∀ e ∈ es, e.a.1 ≤ k ∧ e.b.1 ≤ k) → ∀ {v : Rat}, Areas c r es v → v = 0 := by
  induction hcl with
  | nil =>
    intro _ v hv
    cases hv
    rfl
  | append hch _ ih =>
    intro he v hv
    obtain ⟨a, b, h1, h2, h3⟩ := areas_append_inv hv
    rw [h3, chain_right hc hch (fun e h => he e (List.mem_append_left _ h)) h1, ih (fun e h => he e (List.mem_append_right _ h)) h2]
    grind

end Verif.Raster
