import Verif.Lemmas.Transform
import Verif.Lemmas.StrX
import Verif.Spec.Animation
/-! # Animation tracks -/
namespace Verif.Animation
open Verif
open Verif.Spec (HexByte)
open Verif.Spec.Animation
open Verif.Spec.Transform (way Whole Between PowerLaw)
open Verif.Transform (trimStartStr clamp mixByte mul_unit mul_mono way_between way_zero way_one whole_between mixByte_whole)

/-! ## Curves -/

theorem ease_zero (i : Interp) : ease i 0 = 0 := by cases i <;> decide +kernel
theorem ease_one (i : Interp) : ease i 1 = 1 := by cases i <;> decide +kernel

theorem sq_nonneg (x : Rat) : 0 ≤ x * x := by
  by_cases h : 0 ≤ x
  · exact Rat.mul_nonneg h h
  · have := Rat.mul_nonneg (a := -x) (b := -x) (by grind) (by grind)
    grind

/-- The slope of the smoother curve. -/
def slope (u : Rat) : Rat := u * (1 - u) * (u * (1 - u))

theorem slope_nonneg (u : Rat) : 0 ≤ slope u := sq_nonneg _

theorem smoother_diff (s t : Rat) : t * t * t * (t * (t * 6 - 15) + 10) - s * s * s * (s * (s * 6 - 15) + 10) =
    (t - s) * ((7 * slope s + 32 * slope ((3 * s + t) / 4) + 12 * slope ((s + t) / 2) + 32 * slope ((s + 3 * t) / 4) + 7 * slope t) / 3) := by
  unfold slope
  grind

theorem smooth_diff (s t : Rat) : t * t * (3 - 2 * t) - s * s * (3 - 2 * s) =
    (t - s) * (2 * (s * (1 - s)) + 2 * (t * (1 - t)) + (s * (1 - t)) + (t * (1 - s))) := by
  grind

theorem ease_mono (i : Interp) {s t : Rat} (hs : 0 ≤ s) (h : s ≤ t) (ht : t ≤ 1) : ease i s ≤ ease i t := by
  cases i with
  | linear => exact h
  | smooth =>
    have e := smooth_diff s t
    have h1 := Rat.mul_nonneg (a := s) (b := 1 - s) hs (by grind)
    have h2 := Rat.mul_nonneg (a := t) (b := 1 - t) (by grind) (by grind)
    have h3 := Rat.mul_nonneg (a := s) (b := 1 - t) hs (by grind)
    have h4 := Rat.mul_nonneg (a := t) (b := 1 - s) (by grind) (by grind)
    have h5 := Rat.mul_nonneg (a := t - s) (b := 2 * (s * (1 - s)) + 2 * (t * (1 - t)) + (s * (1 - t)) + (t * (1 - s)))
      (by grind) (by grind)
    show s * s * (3 - 2 * s) ≤ t * t * (3 - 2 * t)
    grind
  | smoother =>
    have e := smoother_diff s t
    have h0 : 0 ≤ t - s := by grind
    have h5 := Rat.mul_nonneg (a := t - s) (b := (7 * slope s + 32 * slope ((3 * s + t) / 4) + 12 * slope ((s + t) / 2) + 32 * slope ((s + 3 * t) / 4) + 7 * slope t) / 3)
      h0 (by
        have a1 := slope_nonneg s
        have a2 := slope_nonneg ((3 * s + t) / 4)
        have a3 := slope_nonneg ((s + t) / 2)
        have a4 := slope_nonneg ((s + 3 * t) / 4)
        have a5 := slope_nonneg t
        generalize slope s = x1 at *
        generalize slope t = x5 at *
        generalize slope ((3 * s + t) / 4) = x2 at *
        generalize slope ((s + t) / 2) = x3 at *
        generalize slope ((s + 3 * t) / 4) = x4 at *
        clear e hs h ht h0
        grind)
    rw [← e] at h5
    show s * s * s * (s * (s * 6 - 15) + 10) ≤ t * t * t * (t * (t * 6 - 15) + 10)
    generalize s * s * s * (s * (s * 6 - 15) + 10) = x at *
    generalize t * t * t * (t * (t * 6 - 15) + 10) = y at *
    clear e hs h ht h0
    grind

theorem ease_range (i : Interp) {t : Rat} (h0 : 0 ≤ t) (h1 : t ≤ 1) : 0 ≤ ease i t ∧ ease i t ≤ 1 := by
  have a := ease_mono i (s := 0) (by decide) h0 h1
  have b := ease_mono i h0 h1 (by decide)
  rw [ease_zero] at a
  rw [ease_one] at b
  exact ⟨a, b⟩

theorem linear_range {a b : Nat} (hb : 0 < b) (h : a ≤ b) : (0 : Rat) ≤ (a : Rat) / (b : Rat) ∧ (a : Rat) / (b : Rat) ≤ 1 := by
  have h0 := Transform.div_mono (a := 0) (b := a) (c := b) hb (by omega)
  have h1 := Transform.div_mono (a := a) (b := b) (c := b) hb h
  have hb' : (0 : Rat) < (b : Rat) := Rat.natCast_lt_natCast.2 hb
  have e : (b : Rat) / (b : Rat) = 1 := by rw [Rat.div_def]; exact Rat.mul_inv_cancel _ (by grind)
  have e0 : ((0 : Nat) : Rat) / (b : Rat) = 0 := by rw [Rat.div_def]; exact Rat.zero_mul _
  rw [e] at h1
  rw [e0] at h0
  exact ⟨h0, h1⟩

theorem progress_range {powf : Rat → Rat → Rat} (hw : PowerLaw powf) {t : Timing} (ha : 0 ≤ t.accel) (now : Nat) :
    0 ≤ progress powf t now ∧ progress powf t now ≤ 1 := by
  unfold progress
  split
  · exact ⟨by decide, by decide⟩
  split
  · exact ⟨by decide, by decide⟩
  have := linear_range (a := now - t.start) (b := t.stop - t.start) (by omega) (by omega)
  dsimp only
  split
  · exact this
  · exact hw.range _ _ this.1 this.2 ha

theorem progress_mono {powf : Rat → Rat → Rat} (hw : PowerLaw powf) {t : Timing} (ha : 0 ≤ t.accel) {m n : Nat} (h : m ≤ n) :
    progress powf t m ≤ progress powf t n := by
  by_cases h1 : m ≤ t.start
  · have := progress_range hw ha n
    rw [show progress powf t m = 0 from if_pos h1]
    exact this.1
  by_cases h2 : t.stop ≤ n
  · have := progress_range hw ha m
    rw [show progress powf t n = 1 by unfold progress; rw [if_neg (by omega), if_pos h2]]
    exact this.2
  unfold progress
  rw [if_neg h1, if_neg (show ¬ t.stop ≤ m by omega), if_neg (show ¬ n ≤ t.start by omega), if_neg h2]
  have hm := linear_range (a := m - t.start) (b := t.stop - t.start) (by omega) (by omega)
  have hn := linear_range (a := n - t.start) (b := t.stop - t.start) (by omega) (by omega)
  have hmn := Transform.div_mono (a := m - t.start) (b := n - t.start) (c := t.stop - t.start) (by omega) (by omega)
  dsimp only
  split
  · exact hmn
  · exact hw.mono _ _ _ hm.1 hmn hn.2 ha

/-! ## Values -/

theorem clamp_of {p : Rat} (h0 : 0 ≤ p) (h1 : p ≤ 1) : clamp p = p := by unfold clamp; grind

theorem trunc_nonneg {x : Rat} (h : 0 ≤ x) : ((trunc x : Int) : Rat) ≤ x ∧ x < ((trunc x : Int) : Rat) + 1 := by
  unfold trunc
  rw [if_neg (Rat.not_lt.2 h)]
  have := Rat.lt_floor_add_one x
  rw [Rat.intCast_add] at this
  exact ⟨Rat.floor_le x, this⟩

theorem trunc_nonpos {x : Rat} (h : x ≤ 0) : ((trunc x : Int) : Rat) - 1 < x ∧ x ≤ ((trunc x : Int) : Rat) := by
  by_cases h0 : x < 0
  · unfold trunc
    rw [if_pos h0]
    refine ⟨?_, Rat.le_ceil⟩
    have := Rat.ceil_lt (x := x)
    grind
  · have e : x = 0 := by grind
    subst e
    decide +kernel

theorem reached {a b : Int} {p : Rat} (h0 : 0 ≤ p) : Reached a b p (a + trunc (((b - a : Int) : Rat) * p)) := by
  have e : ((b - a : Int) : Rat) = (b : Rat) - (a : Rat) := Rat.intCast_sub b a
  unfold Reached way
  rw [Rat.intCast_add, e]
  constructor
  · intro h
    have hab : (a : Rat) ≤ (b : Rat) := Rat.intCast_le_intCast.2 h
    have := trunc_nonneg (x := ((b : Rat) - (a : Rat)) * p) (Rat.mul_nonneg (by grind) h0)
    grind
  · intro h
    have hab : (b : Rat) ≤ (a : Rat) := Rat.intCast_le_intCast.2 h
    have h2 := Rat.mul_nonneg (a := (a : Rat) - (b : Rat)) (b := p) (by grind) h0
    have := trunc_nonpos (x := ((b : Rat) - (a : Rat)) * p) (by grind)
    grind

theorem reached_between {a b n : Int} {p : Rat} (h0 : 0 ≤ p) (h1 : p ≤ 1) (h : Reached a b p n) : Between a b n := by
  have lt : ∀ m k : Int, (m : Rat) < (k : Rat) + 1 → m ≤ k := by
    intro m k h
    have : (m : Rat) < ((k + 1 : Int) : Rat) := by rw [Rat.intCast_add]; exact h
    have := Rat.intCast_lt_intCast.1 this
    omega
  rcases Int.le_total a b with hab | hab
  · have hr : (a : Rat) ≤ (b : Rat) := Rat.intCast_le_intCast.2 hab
    have hw := Transform.way_le hr h0 h1
    have := h.1 hab
    exact .inl ⟨lt _ _ (Std.lt_of_le_of_lt hw.1 this.2), Rat.intCast_le_intCast.1 (Std.le_trans this.1 hw.2)⟩
  · have hr : (b : Rat) ≤ (a : Rat) := Rat.intCast_le_intCast.2 hab
    have hw := Transform.way_ge hr h0 h1
    have := h.2 hab
    exact .inr ⟨Rat.intCast_le_intCast.1 (Std.le_trans hw.1 this.2), lt _ _ (by grind)⟩

theorem interpolate_at {v : Value} (hv : Fits v) {p : Rat} (h0 : 0 ≤ p) (h1 : p ≤ 1) :
    ∃ r, interpolate v p = .ok r ∧ At p v r := by
  unfold interpolate
  dsimp only
  rw [clamp_of h0 h1]
  cases v with
  | integer a b =>
    obtain ⟨a1, a2, b1, b2, d1, d2⟩ := hv
    have hr := reached (a := a) (b := b) h0
    have hb := reached_between h0 h1 hr
    dsimp only
    rw [if_pos (by simp only [i32Ok, Bool.and_eq_true, decide_eq_true_eq]; exact ⟨d1, d2⟩),
      if_pos (by
        simp only [i32Ok, Bool.and_eq_true, decide_eq_true_eq]
        rcases hb with ⟨x, y⟩ | ⟨x, y⟩ <;> omega)]
    exact ⟨_, rfl, hr⟩
  | float a b => exact ⟨_, rfl, rfl⟩
  | color a b =>
    obtain ⟨⟨a1, a2, a3, a4⟩, b1, b2, b3, b4⟩ := hv
    exact ⟨_, rfl, mixByte_whole a1 b1 h0 h1, mixByte_whole a2 b2 h0 h1, mixByte_whole a3 b3 h0 h1, mixByte_whole a4 b4 h0 h1⟩
  | position a b => exact ⟨_, rfl, rfl, rfl⟩
  | scale a b => exact ⟨_, rfl, rfl, rfl⟩

theorem whole_nat {n m : Nat} (h : Whole (n : Rat) m) : m = n := by
  obtain ⟨h1, h2⟩ := h
  have a := Rat.natCast_le_natCast.1 h1
  have : (n : Rat) < ((m + 1 : Nat) : Rat) := by rw [Rat.natCast_add]; exact h2
  have := Rat.natCast_lt_natCast.1 this
  omega

theorem reached_int {a b n k : Int} {p : Rat} (h : Reached a b p n) (e : way a b p = (k : Rat)) : n = k := by
  unfold Reached at h
  rw [e] at h
  have lt : ∀ m k : Int, (m : Rat) < (k : Rat) + 1 → m ≤ k := by
    intro m k h
    have : (m : Rat) < ((k + 1 : Int) : Rat) := by rw [Rat.intCast_add]; exact h
    have := Rat.intCast_lt_intCast.1 this
    omega
  rcases Int.le_total a b with hab | hab
  · have := h.1 hab
    have := Rat.intCast_le_intCast.1 this.1
    have := lt _ _ (h.1 hab).2
    omega
  · have := Rat.intCast_le_intCast.1 (h.2 hab).2
    have := lt n k (by have := (h.2 hab).1; grind)
    omega

theorem at_zero {v : Value} {r : Result} (h : At 0 v r) : r = first v := by
  cases v <;> cases r <;> simp only [At] at h <;> simp only [first]
  · exact congrArg _ (reached_int h (way_zero _ _))
  · rw [h, way_zero]
  · simp only [way_zero] at h
    obtain ⟨h1, h2, h3, h4⟩ := h
    rw [Result.color.injEq]
    exact (by
      rename_i a b c
      cases c; cases a
      simp only at h1 h2 h3 h4
      rw [whole_nat h1, whole_nat h2, whole_nat h3, whole_nat h4])
  · rw [Result.position.injEq]; exact Prod.ext (by rw [h.1, way_zero]) (by rw [h.2, way_zero])
  · rw [Result.scale.injEq]; exact Prod.ext (by rw [h.1, way_zero]) (by rw [h.2, way_zero])

theorem at_one {v : Value} {r : Result} (h : At 1 v r) : r = last v := by
  cases v <;> cases r <;> simp only [At] at h <;> simp only [last]
  · exact congrArg _ (reached_int h (way_one _ _))
  · rw [h, way_one]
  · simp only [way_one] at h
    obtain ⟨h1, h2, h3, h4⟩ := h
    rw [Result.color.injEq]
    exact (by
      rename_i a b c
      cases c; cases b
      simp only at h1 h2 h3 h4
      rw [whole_nat h1, whole_nat h2, whole_nat h3, whole_nat h4])
  · rw [Result.position.injEq]; exact Prod.ext (by rw [h.1, way_one]) (by rw [h.2, way_one])
  · rw [Result.scale.injEq]; exact Prod.ext (by rw [h.1, way_one]) (by rw [h.2, way_one])

theorem at_inside {v : Value} {r : Result} {p : Rat} (h0 : 0 ≤ p) (h1 : p ≤ 1) (h : At p v r) : Inside v r := by
  cases v <;> cases r <;> simp only [At] at h <;> simp only [Inside]
  · exact reached_between h0 h1 h
  · rw [h]; exact way_between h0 h1
  · exact ⟨whole_between h0 h1 h.1, whole_between h0 h1 h.2.1, whole_between h0 h1 h.2.2.1, whole_between h0 h1 h.2.2.2⟩
  · rw [h.1, h.2]; exact ⟨way_between h0 h1, way_between h0 h1⟩
  · rw [h.1, h.2]; exact ⟨way_between h0 h1, way_between h0 h1⟩

theorem evaluate_before (powf : Rat → Rat → Rat) {t : Track} (hv : Fits t.value) {now : Nat} (h : now ≤ t.timing.start) :
    t.evaluate powf now = .ok (first t.value) := by
  unfold Track.evaluate
  rw [show progress powf t.timing now = 0 from if_pos h, ease_zero]
  obtain ⟨r, hr, ha⟩ := interpolate_at hv (p := 0) (by decide) (by decide)
  rw [hr, at_zero ha]

theorem evaluate_after (powf : Rat → Rat → Rat) {t : Track} (hv : Fits t.value) {now : Nat} (h : t.timing.start < now)
    (h2 : t.timing.stop ≤ now) : t.evaluate powf now = .ok (last t.value) := by
  unfold Track.evaluate
  rw [show progress powf t.timing now = 1 by unfold progress; rw [if_neg (by omega), if_pos h2], ease_one]
  obtain ⟨r, hr, ha⟩ := interpolate_at hv (p := 1) (by decide) (by decide)
  rw [hr, at_one ha]

/-! ## State -/

theorem get_set_self (n : Str) (r : Result) (s : State) : getProperty (setProperty n r s) n = some r := by
  unfold getProperty
  induction s with
  | nil => simp [setProperty]
  | cons e s ih =>
    unfold setProperty
    split
    · next h => simp [h]
    · next h => rw [List.find?_cons_of_neg (by simp [h])]; exact ih

theorem get_set_ne {n m : Str} (h : n ≠ m) (r : Result) (s : State) : getProperty (setProperty n r s) m = getProperty s m := by
  unfold getProperty
  induction s with
  | nil => simp [setProperty, h]
  | cons e s ih =>
    unfold setProperty
    split
    · next h2 =>
      have : ¬ e.1 = m := by rw [h2]; exact h
      rw [List.find?_cons_of_neg (by simp [this]), List.find?_cons_of_neg (by simp [this])]
    · by_cases he : e.1 = m
      · rw [List.find?_cons_of_pos (by simp [he]), List.find?_cons_of_pos (by simp [he])]
      · rw [List.find?_cons_of_neg (by simp [he]), List.find?_cons_of_neg (by simp [he])]
        exact ih

theorem from_none {powf : Rat → Rat → Rat} {now : Nat} {name : Str} :
    ∀ {ts : List Track} {s s' : State}, evaluateFrom powf now s ts = .ok s' → (∀ t ∈ ts, t.property ≠ name) →
      getProperty s' name = getProperty s name
  | [], s, s', h, _ => by injection h with h; rw [h]
  | t :: ts, s, s', h, hn => by
    unfold evaluateFrom at h
    split at h
    · rw [from_none h (fun u hu => hn u (by simp [hu]))]
      exact get_set_ne (hn t (by simp)) _ _
    · cases h
    · cases h

theorem from_governs {powf : Rat → Rat → Rat} {now : Nat} {t : Track} :
    ∀ {pre post : List Track} {s s' : State}, evaluateFrom powf now s (pre ++ t :: post) = .ok s' →
      (∀ u ∈ post, u.property ≠ t.property) →
      ∃ r, t.evaluate powf now = .ok r ∧ getProperty s' t.property = some r
  | [], post, s, s', h, hn => by
    simp only [List.nil_append] at h
    unfold evaluateFrom at h
    split at h
    · next r hr =>
      refine ⟨r, hr, ?_⟩
      rw [from_none h hn]
      exact get_set_self _ _ _
    · cases h
    · cases h
  | u :: pre, post, s, s', h, hn => by
    simp only [List.cons_append] at h
    unfold evaluateFrom at h
    split at h
    · exact from_governs h hn
    · cases h
    · cases h

theorem from_total {powf : Rat → Rat → Rat} {now : Nat} : ∀ {ts : List Track} (s : State),
    (∀ t ∈ ts, ∃ r, t.evaluate powf now = .ok r) → ∃ s', evaluateFrom powf now s ts = .ok s'
  | [], s, _ => ⟨s, rfl⟩
  | t :: ts, s, h => by
    obtain ⟨r, hr⟩ := h t (by simp)
    unfold evaluateFrom
    rw [hr]
    exact from_total _ (fun u hu => h u (by simp [hu]))

theorem from_congr {powf : Rat → Rat → Rat} {m n : Nat} : ∀ {ts : List Track} (s : State),
    (∀ t ∈ ts, t.evaluate powf m = t.evaluate powf n) → evaluateFrom powf m s ts = evaluateFrom powf n s ts
  | [], s, _ => rfl
  | t :: ts, s, h => by
    unfold evaluateFrom
    rw [h t (by simp)]
    split
    · exact from_congr _ (fun u hu => h u (by simp [hu]))
    · rfl
    · rfl

/-! ## Modifiers -/

theorem extract_ok {n a b : Str} (hn : '(' ∉ n ∧ ')' ∉ n) (ha : Clean a) (hb : Clean b) :
    extractValues (n ++ '(' :: (a ++ ',' :: (b ++ [')']))) = .ok (some [a, b]) := by
  have e1 : (n ++ '(' :: (a ++ ',' :: (b ++ [')']))).dropWhile (· != '(') = '(' :: (a ++ ',' :: (b ++ [')'])) := by
    rw [List.dropWhile_append_of_pos (fun c hc => by simp; rintro rfl; exact hn.1 hc)]
    rfl
  have e2 : (n ++ '(' :: (a ++ ',' :: (b ++ [')']))).takeWhile (· != '(') = n := by
    rw [List.takeWhile_append_of_pos (fun c hc => by simp; rintro rfl; exact hn.1 hc)]
    simp
  have e3 : (a ++ ',' :: (b ++ [')'])).takeWhile (· != ')') = a ++ ',' :: b := by
    rw [show a ++ ',' :: (b ++ [')']) = (a ++ ',' :: b) ++ [')'] by simp,
      List.takeWhile_append_of_pos (fun c hc => by
        simp only [List.mem_append, List.mem_cons] at hc
        simp only [bne_iff_ne]
        rintro rfl
        rcases hc with h | h | h
        · exact ha.2.1 h
        · revert h; decide
        · exact hb.2.1 h)]
    simp
  unfold extractValues
  rw [e1]
  dsimp only
  rw [e2, if_neg hn.2, if_pos (by simp), e3, splitOn_append_sep _ ha.2.2, splitOn_of_not_mem hb.2.2]

theorem trimStart_stop {h : Str} (hh : h.head? ≠ some '&') (n : Nat) : trimStartStr "&H".toList n h = h := by
  cases n with
  | zero => rfl
  | succ n =>
    unfold trimStartStr
    cases h with
    | nil => rfl
    | cons c s =>
      have : c ≠ '&' := fun e => hh (by rw [e]; rfl)
      show (match stripPrefix "&H".toList (c :: s) with | some t => _ | none => c :: s) = c :: s
      have : stripPrefix "&H".toList (c :: s) = none := by
        simp only [String.reduceToList, stripPrefix]
        rw [if_neg (fun e => this e.symm)]
      rw [this]

theorem cleaned_eq {h : Str} (hne : h ≠ []) (hh : '&' ∉ h) : cleaned ("&H".toList ++ h ++ ['&']) = h := by
  have hd : (h ++ ['&']).head? ≠ some '&' := by
    cases h with
    | nil => exact absurd rfl hne
    | cons c s => simp only [List.cons_append, List.head?_cons]; intro e; injection e with e; exact hh (by simp [e])
  unfold cleaned
  have e : trimStartStr "&H".toList ("&H".toList ++ h ++ ['&']).length ("&H".toList ++ h ++ ['&']) = h ++ ['&'] := by
    rw [show "&H".toList ++ h ++ ['&'] = "&H".toList ++ (h ++ ['&']) by simp]
    show trimStartStr "&H".toList ((h ++ ['&']).length + 1) (h ++ ['&']) = _
    exact trimStart_stop hd _
  rw [e]
  exact Transform.trimEndChar_snoc (Transform.getLast_no hh)

theorem hex_amp {s : Str} {v : Nat} (h : HexByte s v) : '&' ∉ s ∧ '+' ∉ s ∧ s.length = 2 ∧ byteLen s = 2 := by
  obtain ⟨h1, h2, h3, h4⟩ := h.props
  refine ⟨fun hc => (h1 _ hc).2.1 rfl, fun hc => (h1 _ hc).2.2.1 rfl, h2, ?_⟩
  rw [Color.byteLen_of_ascii (fun c hc => (h1 c hc).2.2.2.1), h2]

theorem alpha_ok {h : Str} {m : Nat} (hh : HexByte h m) : parseAlpha ("&H".toList ++ h ++ ['&']) = some (255 - m) := by
  obtain ⟨h1, h2, h3, h4⟩ := hex_amp hh
  obtain ⟨_, _, p3, p4⟩ := hh.props
  unfold parseAlpha
  rw [cleaned_eq (by intro e; rw [e] at h3; simp at h3) h1,
    Color.parseUnsigned_no_plus (by intro e; rw [e] at h3; simp at h3) h2 (p4 0) (by omega)]
  simp

theorem color_ok {s : Str} {c : Color.Rgba} (h : WritesColor s c) : parseColor s = some c := by
  rcases h with ⟨pb, pg, pr, hb, hg, hr, ha, rfl⟩ | ⟨pa, pb, pg, pr, n, hn, hb, hg, hr, ha, rfl⟩
  · obtain ⟨b1, b2, b3, b4⟩ := hex_amp hb
    obtain ⟨g1, g2, g3, g4⟩ := hex_amp hg
    obtain ⟨r1, r2, r3, r4⟩ := hex_amp hr
    have hne : pb ++ pg ++ pr ≠ [] := by intro e; have := congrArg List.length e; simp [b3] at this
    have v : digitsVal 16 0 (pb ++ pg ++ pr) = some (c.b * 65536 + c.g * 256 + c.r) := by
      rw [Color.digitsVal_append, Color.digitsVal_append, hb.props.2.2.2]
      simp only [Option.bind_some]
      rw [hg.props.2.2.2]
      simp only [Option.bind_some]
      rw [hr.props.2.2.2]
      exact congrArg some (by omega)
    have := hb.props.2.2.1
    have := hg.props.2.2.1
    have := hr.props.2.2.1
    unfold parseColor
    rw [cleaned_eq hne (by simp [b1, g1, r1])]
    dsimp only
    rw [if_pos (by rw [byteLen_append, byteLen_append]; omega),
      Color.parseUnsigned_no_plus hne (by simp [b2, g2, r2]) v (by unfold u32Bound; omega)]
    cases c
    simp only at *
    simp only [Option.map_some, Option.some.injEq, Color.Rgba.mk.injEq]
    omega
  · obtain ⟨a1, a2, a3, a4⟩ := hex_amp hn
    obtain ⟨b1, b2, b3, b4⟩ := hex_amp hb
    obtain ⟨g1, g2, g3, g4⟩ := hex_amp hg
    obtain ⟨r1, r2, r3, r4⟩ := hex_amp hr
    have hne : pa ++ pb ++ pg ++ pr ≠ [] := by intro e; have := congrArg List.length e; simp [b3] at this
    have v : digitsVal 16 0 (pa ++ pb ++ pg ++ pr) = some (n * 16777216 + c.b * 65536 + c.g * 256 + c.r) := by
      rw [Color.digitsVal_append, Color.digitsVal_append, Color.digitsVal_append, hn.props.2.2.2]
      simp only [Option.bind_some]
      rw [hb.props.2.2.2]
      simp only [Option.bind_some]
      rw [hg.props.2.2.2]
      simp only [Option.bind_some]
      rw [hr.props.2.2.2]
      exact congrArg some (by omega)
    have := hn.props.2.2.1
    have := hb.props.2.2.1
    have := hg.props.2.2.1
    have := hr.props.2.2.1
    have hl : byteLen (pa ++ pb ++ pg ++ pr) = 8 := by rw [byteLen_append, byteLen_append, byteLen_append]; omega
    unfold parseColor
    rw [cleaned_eq hne (by simp [a1, b1, g1, r1])]
    dsimp only
    rw [if_neg (by omega), if_pos hl,
      Color.parseUnsigned_no_plus hne (by simp [a2, b2, g2, r2]) v (by unfold u32Bound; omega)]
    cases c
    simp only at *
    simp only [Option.map_some, Option.some.injEq, Color.Rgba.mk.injEq]
    omega

theorem branch_ok {n a b : Str} (hn : '(' ∉ n ∧ ')' ∉ n) (ha : Clean a) (hb : Clean b) (tm : Timing) (p : Str) (v : Str → Str → Value) :
    branch (n ++ '(' :: (a ++ ',' :: (b ++ [')']))) tm p v = .ok (some ⟨p, tm, v a b, .linear⟩) := by
  unfold branch
  rw [extract_ok hn ha hb]

/-- The first branch for a documented name is the one for its property. -/
theorem chosen (f32 : Str → Option Rat) {n p : Str} (hm : (n, p) ∈ named) (rest : Str) (tm : Timing) :
    ∃ v, firstBranch (n ++ '(' :: rest) tm (branches f32) = branch (n ++ '(' :: rest) tm p v ∧
      (∀ a b x, Means f32 p a b x → v a b = x) ∧ '(' ∉ n ∧ ')' ∉ n := by
  have num : ∀ {p a b : Str} {x : Value} (d : Rat), p ∈ ["fscx".toList, "fscy".toList, "fs".toList, "frz".toList] → Means f32 p a b x →
      Value.float ((f32 a).getD d) ((f32 b).getD d) = x := by
    intro p a b x d hp h
    rcases h with ⟨_, u, w, hu, hw, rfl⟩ | ⟨e, _⟩ | ⟨e, _⟩
    · rw [hu, hw]; rfl
    · rw [e] at hp; exact absurd hp (by decide)
    · rw [e] at hp; exact absurd hp (by decide)
  have col : ∀ {a b : Str} {x : Value}, Means f32 "c".toList a b x →
      Value.color ((parseColor a).getD ⟨255, 255, 255, 255⟩) ((parseColor b).getD ⟨255, 255, 255, 255⟩) = x := by
    intro a b x h
    rcases h with ⟨e, _⟩ | ⟨_, c, d, hc, hd, rfl⟩ | ⟨e, _⟩
    · exact absurd e (by decide)
    · rw [color_ok hc, color_ok hd]; rfl
    · exact absurd e (by decide)
  have alp : ∀ {a b : Str} {x : Value}, Means f32 "alpha".toList a b x →
      Value.integer (((parseAlpha a).getD 255 : Nat) : Int) (((parseAlpha b).getD 255 : Nat) : Int) = x := by
    intro a b x h
    rcases h with ⟨e, _⟩ | ⟨e, _⟩ | ⟨_, h, k, m, n, hm, hn, rfl, rfl, rfl⟩
    · exact absurd e (by decide)
    · exact absurd e (by decide)
    · rw [alpha_ok hm, alpha_ok hn]; rfl
  simp only [named, List.mem_cons, Prod.mk.injEq, List.not_mem_nil, or_false] at hm
  rcases hm with ⟨rfl, rfl⟩ | ⟨rfl, rfl⟩ | ⟨rfl, rfl⟩ | ⟨rfl, rfl⟩ | ⟨rfl, rfl⟩ | ⟨rfl, rfl⟩ | ⟨rfl, rfl⟩ | ⟨rfl, rfl⟩
  · exact ⟨_, rfl, fun a b x h => num _ (by decide) h, by decide, by decide⟩
  · exact ⟨_, rfl, fun a b x h => num _ (by decide) h, by decide, by decide⟩
  · exact ⟨_, rfl, fun a b x h => num _ (by decide) h, by decide, by decide⟩
  · exact ⟨_, rfl, fun a b x h => num _ (by decide) h, by decide, by decide⟩
  · exact ⟨_, rfl, fun a b x h => num _ (by decide) h, by decide, by decide⟩
  · exact ⟨_, rfl, fun a b x h => col h, by decide, by decide⟩
  · exact ⟨_, rfl, fun a b x h => col h, by decide, by decide⟩
  · exact ⟨_, rfl, fun a b x h => alp h, by decide, by decide⟩

theorem modifier_ok {f32 : Str → Option Rat} {i : Item} (h : i.Ok f32) (tm : Timing) :
    parseModifier f32 i.text tm = .ok (some ⟨i.property, tm, i.value, .linear⟩) := by
  obtain ⟨hm, ha, hb, hv⟩ := h
  obtain ⟨v, e, hval, hn⟩ := chosen f32 hm (i.a ++ ',' :: (i.b ++ [')'])) tm
  unfold parseModifier Item.text
  rw [e, branch_ok hn ha hb, hval _ _ _ hv]

theorem modifiers_ok {f32 : Str → Option Rat} (tm : Timing) : ∀ {is : List Item} (tracks : List Track), (∀ i ∈ is, i.Ok f32) →
    addModifiers f32 tm tracks (is.map Item.text) =
      .ok (tracks ++ is.map (fun i => ⟨i.property, tm, i.value, .linear⟩))
  | [], tracks, _ => by simp [addModifiers]
  | i :: is, tracks, h => by
    simp only [List.map_cons]
    unfold addModifiers
    rw [modifier_ok (h i (by simp))]
    dsimp only
    rw [modifiers_ok tm _ (fun j hj => h j (by simp [hj]))]
    simp

theorem modifiers_kept {f32 : Str → Option Rat} (tm : Timing) : ∀ {ms : List Str} {tracks out : List Track},
    addModifiers f32 tm tracks ms = .ok out → ∃ new, out = tracks ++ new ∧ new.length ≤ ms.length ∧ ∀ t ∈ new, t.timing = tm
  | [], tracks, out, h => by injection h with h; exact ⟨[], by simp [h]⟩
  | m :: ms, tracks, out, h => by
    unfold addModifiers at h
    split at h
    · next t ht =>
      obtain ⟨new, e, hl, hn⟩ := modifiers_kept tm h
      refine ⟨t :: new, by rw [e]; simp, by simp; omega, ?_⟩
      intro u hu
      simp only [List.mem_cons] at hu
      rcases hu with rfl | hu
      · have key : ∀ bs, firstBranch m tm bs = .ok (some u) → u.timing = tm := by
          intro bs
          induction bs with
          | nil => intro h; simp [firstBranch] at h
          | cons b bs ih =>
            unfold firstBranch
            split
            · unfold branch
              intro h
              split at h
              · injection h with h; injection h with h; rw [← h]
              · cases h
              · cases h
              · cases h
            · exact ih
        exact key _ ht
      · exact hn u hu
    · obtain ⟨new, e, hl, hn⟩ := modifiers_kept tm h
      exact ⟨new, e, by simp; omega, hn⟩
    · cases h
    · cases h

end Verif.Animation
