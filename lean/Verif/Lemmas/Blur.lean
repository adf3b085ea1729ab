import Verif.Spec.Blur
/-! # Lemmas about blurring -/
namespace Verif.Blur
open Verif.Spec.Blur

theorem total_congr {n : Nat} {f f' : Nat → Rat} (h : ∀ i, i < n → f i = f' i) : total n f = total n f' := by
  induction n with
  | zero => rfl
  | succ n ih => simp only [total]; rw [ih (fun i hi => h i (by omega)), h n (by omega)]

theorem total_le {n : Nat} {f f' : Nat → Rat} (h : ∀ i, i < n → f i ≤ f' i) : total n f ≤ total n f' := by
  induction n with
  | zero => exact Rat.le_refl
  | succ n ih =>
    have h1 := ih (fun i hi => h i (by omega))
    have h2 := h n (by omega)
    simp only [total]; grind

theorem total_mul (n : Nat) (f : Nat → Rat) (c : Rat) : total n (fun i => f i * c) = total n f * c := by
  induction n with
  | zero => simp only [total]; grind
  | succ n ih => simp only [total]; rw [ih]; grind

theorem total_zero (n : Nat) : total n (fun _ => 0) = 0 := by
  induction n with
  | zero => rfl
  | succ n ih => simp only [total]; rw [ih]; grind

theorem total_pos {n : Nat} {f : Nat → Rat} (h : ∀ i, 0 < f i) : 0 < total (n + 1) f := by
  induction n with
  | zero => have := h 0; simp only [total]; grind
  | succ n ih => have := h (n + 1); simp only [total] at ih ⊢; grind

theorem total_front (n : Nat) (f : Nat → Rat) : total (n + 1) f = f 0 + total n (fun i => f (i + 1)) := by
  induction n with
  | zero => simp only [total]; grind
  | succ n ih =>
    rw [show total (n + 2) f = total (n + 1) f + f (n + 1) from rfl, ih]
    simp only [total]; grind

theorem total_reverse (n : Nat) (f : Nat → Rat) : total n (fun i => f (n - 1 - i)) = total n f := by
  induction n with
  | zero => rfl
  | succ n ih =>
    rw [total_front]
    have : total n (fun i => f (n + 1 - 1 - (i + 1))) = total n (fun i => f (n - 1 - i)) :=
      total_congr (fun i _ => by congr 1; omega)
    rw [this, ih]
    simp only [total]
    rw [show n + 1 - 1 - 0 = n by omega]; grind

/-! ## The kernel -/

theorem kernel_pos {g : Int → Rat} (hg : Weights g) (r i : Nat) : 0 < kernel g r i := by
  have h := total_pos (n := 2 * r) (f := fun j => g ((j : Int) - (r : Int))) (fun _ => hg.pos _)
  unfold kernel
  rw [Rat.div_def]
  exact Rat.mul_pos (hg.pos _) (Rat.inv_pos.2 h)

theorem kernel_sum {g : Int → Rat} (hg : Weights g) (r : Nat) : total (2 * r + 1) (kernel g r) = 1 := by
  have h := total_pos (n := 2 * r) (f := fun j => g ((j : Int) - (r : Int))) (fun _ => hg.pos _)
  unfold kernel
  rw [show (fun i : Nat => g ((i : Int) - (r : Int)) / total (2 * r + 1) fun j => g ((j : Int) - (r : Int)))
    = (fun i : Nat => g ((i : Int) - (r : Int)) * (total (2 * r + 1) fun j => g ((j : Int) - (r : Int)))⁻¹) from
      funext (fun i => Rat.div_def _ _)]
  rw [total_mul (2 * r + 1) (fun i => g ((i : Int) - (r : Int)))]
  exact Rat.mul_inv_cancel _ (by grind)

theorem kernel_even {g : Int → Rat} (hg : Weights g) (r i : Nat) (hi : i < 2 * r + 1) :
    kernel g r (2 * r + 1 - 1 - i) = kernel g r i := by
  unfold kernel
  have : ((2 * r + 1 - 1 - i : Nat) : Int) - (r : Int) = -((i : Int) - (r : Int)) := by omega
  rw [this, hg.even]

/-! ## One pass -/

theorem toByte_le (q : Rat) : toByte q ≤ 255 := Nat.min_le_right _ _

theorem toByte_mono {p q : Rat} (h : p ≤ q) : toByte p ≤ toByte q := by
  unfold toByte
  have : (p + 1 / 2).floor ≤ (q + 1 / 2).floor := by
    rw [Rat.le_floor_iff]
    have := Rat.floor_le (p + 1 / 2)
    grind
  omega

theorem toByte_nat {n : Nat} (h : n ≤ 255) : toByte (n : Rat) = n := by
  unfold toByte
  have : ((n : Rat) + 1 / 2).floor = (n : Int) := by
    apply Int.le_antisymm
    · have h1 := Rat.floor_le ((n : Rat) + 1 / 2)
      have h2 : (((n : Rat) + 1 / 2).floor : Rat) < ((n + 1 : Int) : Rat) := by
        rw [Rat.intCast_add, Rat.intCast_natCast]
        grind
      have := Rat.intCast_lt_intCast.1 h2
      omega
    · rw [Rat.le_floor_iff, Rat.intCast_natCast]; grind
  rw [this]; omega

/-- The value written differs from the exact one by at most a half. -/
theorem toByte_near {q : Rat} (h0 : 0 ≤ q) (h1 : q ≤ 255) : (toByte q : Rat) ≤ q + 1 / 2 ∧ q ≤ toByte q + 1 / 2 := by
  have hf := Rat.floor_le (q + 1 / 2)
  have hl := Rat.lt_floor_add_one (q + 1 / 2)
  have hpos : 0 ≤ (q + 1 / 2).floor := by rw [Rat.le_floor_iff]; grind
  have hle : (q + 1 / 2).floor ≤ 255 := by
    have h2 : ((q + 1 / 2).floor : Rat) < ((256 : Int) : Rat) := by grind
    have := Rat.intCast_lt_intCast.1 h2
    omega
  obtain ⟨n, hn⟩ := Int.eq_ofNat_of_zero_le hpos
  have : toByte q = n := by unfold toByte; rw [hn]; omega
  rw [this]
  rw [hn, Rat.intCast_natCast] at hf
  rw [hn, Rat.intCast_add, Rat.intCast_natCast] at hl
  constructor <;> grind

theorem tap_in {n r : Nat} (hn : n ≠ 0) (x : Int) (i : Nat) : 0 ≤ tap n r x i ∧ tap n r x i < n := by
  unfold tap; omega

theorem tap_near {n r : Nat} (x : Int) (hx : 0 ≤ x ∧ x < n) (i : Nat) (hi : i < 2 * r + 1) :
    x - r ≤ tap n r x i ∧ tap n r x i ≤ x + r := by
  unfold tap; omega

theorem along_congr {g : Int → Rat} {r n : Nat} {v v' : Int → Nat} {x : Int}
    (h : ∀ i, i < 2 * r + 1 → v (tap n r x i) = v' (tap n r x i)) : along g r n v x = along g r n v' x := by
  unfold along
  rw [total_congr (fun i hi => by rw [h i hi])]

theorem along_mono {g : Int → Rat} (hg : Weights g) {r n : Nat} {v v' : Int → Nat} {x : Int}
    (h : ∀ i, i < 2 * r + 1 → v (tap n r x i) ≤ v' (tap n r x i)) : along g r n v x ≤ along g r n v' x := by
  unfold along
  apply toByte_mono
  apply total_le
  intro i hi
  exact Rat.mul_le_mul_of_nonneg_left (Rat.natCast_le_natCast.2 (h i hi)) (Rat.le_of_lt (kernel_pos hg r i))

theorem along_const {g : Int → Rat} (hg : Weights g) {r n : Nat} {x : Int} {c : Nat} (hc : c ≤ 255) :
    along g r n (fun _ => c) x = c := by
  unfold along
  rw [total_mul, kernel_sum hg, Rat.one_mul, toByte_nat hc]

theorem along_le (g : Int → Rat) (r n : Nat) (v : Int → Nat) (x : Int) : along g r n v x ≤ 255 := toByte_le _

theorem along_between {g : Int → Rat} (hg : Weights g) {r n : Nat} {v : Int → Nat} {x : Int} {lo hi : Nat} (hh : hi ≤ 255)
    (h : ∀ i, i < 2 * r + 1 → lo ≤ v (tap n r x i) ∧ v (tap n r x i) ≤ hi) :
    lo ≤ along g r n v x ∧ along g r n v x ≤ hi := by
  have hlo : lo ≤ 255 := by have := h 0 (by omega); omega
  have h1 := along_mono hg (v := fun _ => lo) (v' := v) (n := n) (x := x) (fun i hi => (h i hi).1)
  have h2 := along_mono hg (v := v) (v' := fun _ => hi) (n := n) (x := x) (fun i hi => (h i hi).2)
  rw [along_const hg hlo] at h1
  rw [along_const hg hh] at h2
  exact ⟨h1, h2⟩

/-- The exact value before rounding. -/
def exactly (g : Int → Rat) (r n : Nat) (v : Int → Nat) (x : Int) : Rat :=
  total (2 * r + 1) (fun i => kernel g r i * (v (tap n r x i) : Rat))

theorem along_near {g : Int → Rat} (hg : Weights g) {r n : Nat} {v : Int → Nat} {x : Int}
    (h : ∀ i, i < 2 * r + 1 → v (tap n r x i) ≤ 255) :
    (along g r n v x : Rat) ≤ exactly g r n v x + 1 / 2 ∧ exactly g r n v x ≤ along g r n v x + 1 / 2 := by
  apply toByte_near
  · rw [← total_zero (2 * r + 1)]
    apply total_le
    intro i _
    exact Rat.mul_nonneg (Rat.le_of_lt (kernel_pos hg r i)) (Rat.natCast_nonneg)
  · rw [show (255 : Rat) = total (2 * r + 1) (fun i => kernel g r i * 255) by rw [total_mul, kernel_sum hg]; grind]
    apply total_le
    intro i hi
    apply Rat.mul_le_mul_of_nonneg_left _ (Rat.le_of_lt (kernel_pos hg r i))
    exact Rat.natCast_le_natCast.2 (h i hi)

/-- What differs little from a multiple keeps differing little. -/
theorem exactly_close {g : Int → Rat} (hg : Weights g) {r n : Nat} {v u : Int → Nat} {x : Int} {c e : Rat}
    (h : ∀ i, i < 2 * r + 1 → (v (tap n r x i) : Rat) ≤ c * u (tap n r x i) + e ∧ c * u (tap n r x i) ≤ v (tap n r x i) + e) :
    exactly g r n v x ≤ c * exactly g r n u x + e ∧ c * exactly g r n u x ≤ exactly g r n v x + e := by
  have hadd : ∀ (n : Nat) (f f' : Nat → Rat), total n (fun i => f i + f' i) = total n f + total n f' := by
    intro n f f'
    induction n with
    | zero => simp only [total]; grind
    | succ n ih => simp only [total]; rw [ih]; grind
  have hk := kernel_sum hg r
  have he : total (2 * r + 1) (fun i => kernel g r i * e) = e := by rw [total_mul, hk]; grind
  have hc : total (2 * r + 1) (fun i => kernel g r i * (u (tap n r x i) : Rat) * c) = c * exactly g r n u x := by
    rw [total_mul, Rat.mul_comm]; rfl
  constructor
  · rw [← hc, ← he, ← hadd]
    apply total_le
    intro i hi
    have := Rat.mul_le_mul_of_nonneg_left (h i hi).1 (Rat.le_of_lt (kernel_pos hg r i))
    grind
  · rw [← hc]
    conv => rhs; rw [← he]
    rw [show exactly g r n v x = total (2 * r + 1) (fun i => kernel g r i * (v (tap n r x i) : Rat)) from rfl, ← hadd]
    apply total_le
    intro i hi
    have := Rat.mul_le_mul_of_nonneg_left (h i hi).2 (Rat.le_of_lt (kernel_pos hg r i))
    grind

theorem along_flip {g : Int → Rat} (hg : Weights g) {r n : Nat} (hn : n ≠ 0) {v : Int → Nat} {x : Int} :
    along g r n (fun x' => v (n - 1 - x')) x = along g r n v (n - 1 - x) := by
  unfold along
  rw [← total_reverse]
  congr 1
  apply total_congr
  intro i hi
  rw [kernel_even hg r i hi]
  have : (n : Int) - 1 - tap n r x (2 * r + 1 - 1 - i) = tap n r (n - 1 - x) i := by
    unfold tap; omega
  simp only [this]

/-- A row or column read without an end: nothing lies outside of it. -/
def beyond (n : Nat) (v : Int → Nat) (x : Int) : Nat := if 0 ≤ x ∧ x < n then v x else 0

/-- One pass over a row or column that goes on without an end. -/
def spread (g : Int → Rat) (r : Nat) (v : Int → Nat) (x : Int) : Nat :=
  toByte (total (2 * r + 1) (fun i => kernel g r i * (v (x + (i : Int) - (r : Int)) : Rat)))

theorem along_spread {g : Int → Rat} {r n : Nat} (hn : n ≠ 0) {v : Int → Nat} {x : Int} (h0 : v 0 = 0) (h1 : v (n - 1) = 0) :
    along g r n v x = spread g r (beyond n v) x := by
  unfold along spread
  congr 1
  apply total_congr
  intro i _
  have : v (tap n r x i) = beyond n v (x + (i : Int) - (r : Int)) := by
    unfold beyond
    by_cases h : 0 ≤ x + (i : Int) - (r : Int) ∧ x + (i : Int) - (r : Int) < n
    · rw [if_pos h]; congr 1; unfold tap; omega
    · rw [if_neg h]
      by_cases hl : 0 ≤ x + (i : Int) - (r : Int)
      · rw [show tap n r x i = (n : Int) - 1 by unfold tap; omega, h1]
      · rw [show tap n r x i = 0 by unfold tap; omega, h0]
  rw [this]

theorem spread_congr {g : Int → Rat} {r : Nat} {v v' : Int → Nat} {x x' : Int}
    (h : ∀ i : Nat, i < 2 * r + 1 → v (x + (i : Int) - (r : Int)) = v' (x' + (i : Int) - (r : Int))) :
    spread g r v x = spread g r v' x' := by
  unfold spread
  rw [total_congr (fun i hi => by rw [h i hi])]

theorem spread_zero {g : Int → Rat} {r : Nat} {v : Int → Nat} {x : Int}
    (h : ∀ i : Nat, i < 2 * r + 1 → v (x + (i : Int) - (r : Int)) = 0) : spread g r v x = 0 := by
  unfold spread
  rw [total_congr (f' := fun _ => 0) (fun i hi => by rw [h i hi]; grind), total_zero]
  decide +kernel

/-! ## Both passes -/

theorem passes_congr {g : Int → Rat} {r w h : Nat} (hw : w ≠ 0) (hh : h ≠ 0) {p p' : Int → Int → Nat} {x y : Int}
    (hx : 0 ≤ x ∧ x < w) (hy : 0 ≤ y ∧ y < h)
    (hp : ∀ x' y' : Int, (0 ≤ x' ∧ x' < w ∧ 0 ≤ y' ∧ y' < h) → Near r x y x' y' → p x' y' = p' x' y') :
    passes g r w h p x y = passes g r w h p' x y := by
  unfold passes
  apply along_congr
  intro i hi
  apply along_congr
  intro j hj
  have h1 := tap_in (r := r) hw x j
  have h2 := tap_in (r := r) hh y i
  have h3 := tap_near (r := r) x hx j hj
  have h4 := tap_near (r := r) y hy i hi
  exact hp _ _ ⟨h1.1, h1.2, h2.1, h2.2⟩ ⟨h3.1, h3.2, h4.1, h4.2⟩

theorem passes_mono {g : Int → Rat} (hg : Weights g) {r w h : Nat} (hw : w ≠ 0) (hh : h ≠ 0) {p p' : Int → Int → Nat} {x y : Int}
    (hx : 0 ≤ x ∧ x < w) (hy : 0 ≤ y ∧ y < h)
    (hp : ∀ x' y' : Int, (0 ≤ x' ∧ x' < w ∧ 0 ≤ y' ∧ y' < h) → Near r x y x' y' → p x' y' ≤ p' x' y') :
    passes g r w h p x y ≤ passes g r w h p' x y := by
  unfold passes
  apply along_mono hg
  intro i hi
  apply along_mono hg
  intro j hj
  have h1 := tap_in (r := r) hw x j
  have h2 := tap_in (r := r) hh y i
  have h3 := tap_near (r := r) x hx j hj
  have h4 := tap_near (r := r) y hy i hi
  exact hp _ _ ⟨h1.1, h1.2, h2.1, h2.2⟩ ⟨h3.1, h3.2, h4.1, h4.2⟩

theorem passes_const {g : Int → Rat} (hg : Weights g) {r w h : Nat} {c : Nat} (hc : c ≤ 255) (x y : Int) :
    passes g r w h (fun _ _ => c) x y = c := by
  unfold passes
  simp only [along_const hg hc]

theorem passes_between {g : Int → Rat} (hg : Weights g) {r w h : Nat} (hw : w ≠ 0) (hh : h ≠ 0) {p : Int → Int → Nat} {x y : Int}
    (hx : 0 ≤ x ∧ x < w) (hy : 0 ≤ y ∧ y < h) {lo hi : Nat} (hlo : lo ≤ 255) (hhi : hi ≤ 255)
    (hp : ∀ x' y' : Int, (0 ≤ x' ∧ x' < w ∧ 0 ≤ y' ∧ y' < h) → Near r x y x' y' → lo ≤ p x' y' ∧ p x' y' ≤ hi) :
    lo ≤ passes g r w h p x y ∧ passes g r w h p x y ≤ hi := by
  have h1 := passes_mono hg hw hh hx hy (p := fun _ _ => lo) (p' := p) (fun x' y' hi hn => (hp x' y' hi hn).1)
  have h2 := passes_mono hg hw hh hx hy (p := p) (p' := fun _ _ => hi) (fun x' y' hi hn => (hp x' y' hi hn).2)
  rw [passes_const hg hlo] at h1
  rw [passes_const hg hhi] at h2
  exact ⟨h1, h2⟩

theorem passes_le (g : Int → Rat) (r w h : Nat) (p : Int → Int → Nat) (x y : Int) : passes g r w h p x y ≤ 255 := along_le ..

/-- Two channels in a fixed proportion stay so up to rounding. -/
theorem passes_close {g : Int → Rat} (hg : Weights g) {r w h : Nat} (hw : w ≠ 0) (hh : h ≠ 0) {p q : Int → Int → Nat} {x y : Int}
    {c e : Rat} (hc0 : 0 ≤ c) (hc1 : c ≤ 1)
    (hp : ∀ x' y' : Int, (0 ≤ x' ∧ x' < w ∧ 0 ≤ y' ∧ y' < h) → p x' y' ≤ 255 ∧ q x' y' ≤ 255 ∧
      (p x' y' : Rat) ≤ c * q x' y' + e ∧ c * q x' y' ≤ p x' y' + e) :
    (passes g r w h p x y : Rat) ≤ c * passes g r w h q x y + (e + 2) ∧
      c * passes g r w h q x y ≤ passes g r w h p x y + (e + 2) := by
  have half : ∀ z : Rat, ∀ k : Nat, z ≤ k + 1 / 2 → (k : Rat) ≤ z + 1 / 2 → c * z ≤ c * k + 1 / 2 ∧ c * (k : Rat) ≤ c * z + 1 / 2 := by
    intro z k h1 h2
    have h3 := Rat.mul_le_mul_of_nonneg_left h1 hc0
    have h4 := Rat.mul_le_mul_of_nonneg_left h2 hc0
    constructor <;> grind
  have row : ∀ y' : Int, (0 ≤ y' ∧ y' < h) →
      (along g r w (fun x' => p x' y') x : Rat) ≤ c * along g r w (fun x' => q x' y') x + (e + 1) ∧
        c * along g r w (fun x' => q x' y') x ≤ along g r w (fun x' => p x' y') x + (e + 1) := by
    intro y' hy'
    have hin : ∀ i, 0 ≤ tap w r x i ∧ tap w r x i < w ∧ 0 ≤ y' ∧ y' < h := fun i =>
      ⟨(tap_in hw x i).1, (tap_in hw x i).2, hy'.1, hy'.2⟩
    have a := along_near hg (v := fun x' => p x' y') (n := w) (x := x) (r := r) (fun i _ => (hp _ _ (hin i)).1)
    have b := along_near hg (v := fun x' => q x' y') (n := w) (x := x) (r := r) (fun i _ => (hp _ _ (hin i)).2.1)
    have d := exactly_close hg (v := fun x' => p x' y') (u := fun x' => q x' y') (n := w) (x := x) (r := r) (c := c) (e := e)
      (fun i _ => (hp _ _ (hin i)).2.2)
    have f := half _ _ b.2 b.1
    constructor <;> grind
  have a := along_near hg (v := fun y' => along g r w (fun x' => p x' y') x) (n := h) (x := y) (r := r) (fun i _ => along_le ..)
  have b := along_near hg (v := fun y' => along g r w (fun x' => q x' y') x) (n := h) (x := y) (r := r) (fun i _ => along_le ..)
  have d := exactly_close hg (v := fun y' => along g r w (fun x' => p x' y') x) (u := fun y' => along g r w (fun x' => q x' y') x)
    (n := h) (x := y) (r := r) (c := c) (e := e + 1) (fun i _ => row _ (tap_in hh y i))
  have f := half _ _ b.2 b.1
  unfold passes
  constructor <;> grind

theorem passes_flip {g : Int → Rat} (hg : Weights g) {r w h : Nat} (hw : w ≠ 0) {p : Int → Int → Nat} {x y : Int} :
    passes g r w h (fun x' y' => p (w - 1 - x') y') x y = passes g r w h p (w - 1 - x) y := by
  unfold passes
  congr 1
  funext y'
  exact along_flip hg hw (v := fun x' => p x' y')

theorem passes_flop {g : Int → Rat} (hg : Weights g) {r w h : Nat} (hh : h ≠ 0) {p : Int → Int → Nat} {x y : Int} :
    passes g r w h (fun x' y' => p x' (h - 1 - y')) x y = passes g r w h p x (h - 1 - y) := by
  unfold passes
  exact along_flip hg hh (v := fun y' => along g r w (fun x' => p x' y') x)

/-- A plane read without an end: nothing lies outside of it. -/
def plane (w h : Nat) (p : Int → Int → Nat) (x y : Int) : Nat := if 0 ≤ x ∧ x < w ∧ 0 ≤ y ∧ y < h then p x y else 0

/-- Both passes over a plane that goes on without an end. -/
def spread2 (g : Int → Rat) (r : Nat) (p : Int → Int → Nat) (x y : Int) : Nat :=
  spread g r (fun y' => spread g r (fun x' => p x' y') x) y

theorem passes_spread {g : Int → Rat} {r w h : Nat} (hw : w ≠ 0) (hh : h ≠ 0) {p : Int → Int → Nat}
    (hp : ∀ x y : Int, (0 ≤ x ∧ x < w ∧ 0 ≤ y ∧ y < h) → x = 0 ∨ x = w - 1 ∨ y = 0 ∨ y = h - 1 → p x y = 0) (x y : Int) :
    passes g r w h p x y = spread2 g r (plane w h p) x y := by
  have row : ∀ y' : Int, (0 ≤ y' ∧ y' < h) →
      along g r w (fun x' => p x' y') x = spread g r (fun x' => plane w h p x' y') x := by
    intro y' hy'
    rw [along_spread hw (hp 0 y' (by omega) (by omega)) (hp (w - 1) y' (by omega) (by omega))]
    apply spread_congr
    intro i _
    unfold beyond plane
    by_cases h1 : 0 ≤ x + (i : Int) - (r : Int) ∧ x + (i : Int) - (r : Int) < w
    · rw [if_pos h1, if_pos ⟨h1.1, h1.2, hy'.1, hy'.2⟩]
    · rw [if_neg h1, if_neg (by omega)]
  have edge : ∀ y' : Int, y' ≤ 0 ∨ (h : Int) - 1 ≤ y' → spread g r (fun x' => plane w h p x' y') x = 0 := by
    intro y' hy'
    apply spread_zero
    intro i _
    unfold plane
    split
    · rename_i hin
      exact hp _ _ hin (by omega)
    · rfl
  unfold passes spread2
  rw [along_spread hh]
  · apply spread_congr
    intro i _
    unfold beyond
    by_cases h1 : 0 ≤ y + (i : Int) - (r : Int) ∧ y + (i : Int) - (r : Int) < h
    · rw [if_pos h1]; exact row _ h1
    · rw [if_neg h1]; exact (edge _ (by omega)).symm
  · rw [row 0 (by omega)]; exact edge 0 (by omega)
  · rw [row (h - 1) (by omega)]; exact edge _ (by omega)

/-- A plane with an empty border, in a larger plane: blurring does not reach the edge of the smaller one. -/
theorem passes_placed {g : Int → Rat} {r w h W H dx dy : Nat} (hr : 1 ≤ r) (hw : w ≠ 0) (hh : h ≠ 0)
    (hW : w + dx ≤ W) (hH : h + dy ≤ H) {p P : Int → Int → Nat}
    (hpad : ∀ x y : Int, (0 ≤ x ∧ x < w ∧ 0 ≤ y ∧ y < h) → p x y ≠ 0 → r ≤ x ∧ x + r < w ∧ r ≤ y ∧ y + r < h)
    (hin : ∀ x y : Int, (0 ≤ x ∧ x < w ∧ 0 ≤ y ∧ y < h) → P (x + dx) (y + dy) = p x y)
    (hout : ∀ x y : Int, (0 ≤ x ∧ x < W ∧ 0 ≤ y ∧ y < H) →
      ¬(0 ≤ x - dx ∧ x - dx < w ∧ 0 ≤ y - dy ∧ y - dy < h) → P x y = 0) :
    (∀ x y : Int, (0 ≤ x ∧ x < w ∧ 0 ≤ y ∧ y < h) → passes g r W H P (x + dx) (y + dy) = passes g r w h p x y) ∧
    (∀ x y : Int, (0 ≤ x ∧ x < W ∧ 0 ≤ y ∧ y < H) → ¬(0 ≤ x - dx ∧ x - dx < w ∧ 0 ≤ y - dy ∧ y - dy < h) → passes g r W H P x y = 0) := by
  have same : ∀ X Y : Int, plane W H P X Y = plane w h p (X - dx) (Y - dy) := by
    intro X Y
    unfold plane
    by_cases h1 : 0 ≤ X - dx ∧ X - dx < w ∧ 0 ≤ Y - dy ∧ Y - dy < h
    · rw [if_pos h1, if_pos (by omega)]
      have := hin _ _ h1
      rwa [show X - dx + dx = X by omega, show Y - dy + dy = Y by omega] at this
    · rw [if_neg h1]
      split
      · rename_i h2; exact hout _ _ h2 h1
      · rfl
  have zero : ∀ x y : Int, x < r ∨ (w : Int) ≤ x + r ∨ y < r ∨ (h : Int) ≤ y + r → plane w h p x y = 0 := by
    intro x y hxy
    unfold plane
    split
    · rename_i h1
      apply Decidable.byContradiction
      intro hne
      have := hpad _ _ h1 hne
      omega
    · rfl
  have small : ∀ x y : Int, passes g r w h p x y = spread2 g r (plane w h p) x y := by
    apply passes_spread hw hh
    intro x y h1 h2
    have := zero x y (by omega)
    unfold plane at this
    rwa [if_pos h1] at this
  have big : ∀ x y : Int, passes g r W H P x y = spread2 g r (plane w h p) (x - dx) (y - dy) := by
    intro x y
    rw [passes_spread (by omega) (by omega)]
    · unfold spread2
      apply spread_congr
      intro i _
      apply spread_congr
      intro j _
      rw [same]
      congr 1 <;> omega
    · intro x y h1 h2
      have h3 := same x y
      rw [zero _ _ (by omega)] at h3
      unfold plane at h3
      rwa [if_pos h1] at h3
  constructor
  · intro x y _
    rw [small, big]
    congr 1 <;> omega
  · intro x y h1 h2
    rw [big]
    apply spread_zero
    intro i hi
    apply spread_zero
    intro j hj
    apply zero
    omega

end Verif.Blur
