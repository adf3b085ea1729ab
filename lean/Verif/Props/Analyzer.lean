import Verif.Lemmas.Analyzer
/-! Property C138: what the frame analyzer reports. -/
namespace Verif.Props.Analyzer
open Verif.Analyzer
open Verif.Spec.Analyzer

/-- **C138 (areas).** For every frame: the regions reported are, in reading order of their first pixels, the areas of more than
ten visible pixels joined side by side or one above the other, each exactly once; each with its number of pixels, the smallest
box around them and their average colour. -/
theorem C138_regions (f : Frame) : ∃ ss, (∀ s, s ∈ ss ↔ First f s ∧ Big f s) ∧ ss.Pairwise Before ∧ Each (Describes f) ss (detectRegions f) := by
  obtain ⟨ss, h1, h2, h3⟩ := detect_spec f
  exact ⟨ss, h3, h2, h1⟩

/-- A frame of 5 by 4: an area of eleven pixels, and one of two that touches it only at a corner. -/
def picture : Frame := ⟨5, 4, ["xxxxx", "x.xxx", "x..xx", ".xx.."].flatMap (fun l => l.toList.flatMap (fun c => if c = 'x' then [9, 200, 3, 255] else [7, 7, 7, 0]))⟩

example : detectRegions picture = [⟨0, 0, 4, 2, 12, [9, 200, 3, 255]⟩] := by decide +kernel

private theorem inv_nonneg (n : Nat) : (0 : Rat) ≤ (n : Rat)⁻¹ := by
  rcases Nat.eq_zero_or_pos n with rfl | h
  · decide +kernel
  · exact Rat.le_of_lt (Rat.inv_pos.2 (by exact_mod_cast h))

private theorem least_area {f : Frame} {p : Nat × Nat} (h : Visible f p) : ∀ (n : Nat), p.2 * f.w + p.1 ≤ n →
    ∃ s, First f s ∧ Joined f s p
  | n, hn => by
    by_cases hf : First f p
    · exact ⟨p, hf, .here h⟩
    · have : ∃ q, Joined f p q ∧ ¬ (q = p ∨ Before p q) :=
        Classical.byContradiction fun g => hf ⟨h, fun q hq => Classical.byContradiction fun k => g ⟨q, hq, k⟩⟩
      obtain ⟨q, h1, h2⟩ := this
      have hq := (joined_visible h1).2
      have hlt : q.2 * f.w + q.1 < p.2 * f.w + p.1 := by
        have hne : q ≠ p := fun e => h2 (Or.inl e)
        have hnb : ¬ Before p q := fun e => h2 (Or.inr e)
        unfold Before at hnb
        obtain ⟨q1, q2⟩ := q
        obtain ⟨p1, p2⟩ := p
        have hq1 : q1 < f.w := hq.1
        dsimp only at *
        by_cases e : q2 = p2
        · subst e
          have : q1 ≠ p1 := fun e => hne (by rw [e])
          omega
        · have h3 : q2 + 1 ≤ p2 := by omega
          have := Nat.mul_le_mul_right f.w h3
          rw [Nat.add_mul, Nat.one_mul] at this
          omega
      match n with
      | 0 => omega
      | n + 1 =>
        obtain ⟨s, a, b⟩ := least_area hq n (by omega)
        exact ⟨s, a, joined_trans b (joined_symm h1)⟩

/-- **C138 (every pixel).** Every visible pixel of an area of more than ten is in the box of a region that describes the area. -/
theorem C138_every (f : Frame) (p : Nat × Nat) (hp : Visible f p) (hb : Big f p) :
    ∃ r ∈ detectRegions f, Describes f p r ∧ r.minX ≤ p.1 ∧ p.1 ≤ r.maxX ∧ r.minY ≤ p.2 ∧ p.2 ≤ r.maxY := by
  obtain ⟨s, h1, h2⟩ := least_area hp _ (Nat.le_refl _)
  obtain ⟨ss, h3, -, h4⟩ := C138_regions f
  have move : ∀ {a b : Nat × Nat} {pts}, Joined f a b → Area f b pts → Area f a pts := by
    intro a b pts hab h
    exact ⟨h.1, fun q => (h.2 q).trans ⟨fun g => joined_trans hab g, fun g => joined_trans (joined_symm hab) g⟩⟩
  obtain ⟨pts, h5, h6⟩ := hb
  have hs := (h3 s).2 ⟨h1, pts, move h2 h5, h6⟩
  have pick : ∀ {l : List (Nat × Nat)} {m : List Region}, Each (Describes f) l m → s ∈ l → ∃ r ∈ m, Describes f s r := by
    intro l m h
    induction h with
    | nil => intro g; cases g
    | cons hd _ ih =>
      intro g
      rcases List.mem_cons.1 g with rfl | g
      · exact ⟨_, by simp, hd⟩
      · obtain ⟨r, a, b⟩ := ih g
        exact ⟨r, by simp [a], b⟩
  obtain ⟨r, h7, q, h8, h9, h10, h11, h12, h13, h14⟩ := pick h4 hs
  have hm : p ∈ q := (h8.2 p).2 h2
  exact ⟨r, h7, ⟨q, move (joined_symm h2) h8, h9, h10, h11, h12, h13, h14⟩, h10.2 _ (List.mem_map_of_mem hm), h12.2 _ (List.mem_map_of_mem hm),
    h11.2 _ (List.mem_map_of_mem hm), h13.2 _ (List.mem_map_of_mem hm)⟩

example : ∃ r ∈ detectRegions picture, r.minX ≤ 3 ∧ r.maxY = 2 := ⟨⟨0, 0, 4, 2, 12, [9, 200, 3, 255]⟩, by decide +kernel, by decide, rfl⟩

/-- **C138 (counts).** For every frame: the tables say of every value how many pixels have it in the channel; the visible pixels
are counted, and those of equal channels above 200, below 50 and between, and the others. -/
theorem C138_counts (f : Frame) :
    (∀ v, v < 256 → (histogram f).red.getD v 0 = howMany f.px (fun r _ _ _ => r = v) ∧
      (histogram f).green.getD v 0 = howMany f.px (fun _ g _ _ => g = v) ∧
      (histogram f).blue.getD v 0 = howMany f.px (fun _ _ b _ => b = v) ∧
      (histogram f).alpha.getD v 0 = howMany f.px (fun _ _ _ a => a = v)) ∧
    (histogram f).visible = howMany f.px (fun _ _ _ a => decide (a > 0)) ∧
    (histogram f).white = howMany f.px (fun r g b a => decide (a > 0 ∧ r = g ∧ g = b ∧ r > 200)) ∧
    (histogram f).black = howMany f.px (fun r g b a => decide (a > 0 ∧ r = g ∧ g = b ∧ r < 50)) ∧
    (histogram f).gray = howMany f.px (fun r g b a => decide (a > 0 ∧ r = g ∧ g = b ∧ 50 ≤ r ∧ r ≤ 200)) ∧
    (histogram f).colored = howMany f.px (fun r g b a => decide (a > 0 ∧ ¬ (r = g ∧ g = b))) := by
  obtain ⟨h1, h2, h3, h4, h5, h6, -⟩ := hist_loop f.px.length f.px {} (Nat.le_refl _) ⟨List.length_replicate, List.length_replicate, List.length_replicate, List.length_replicate⟩
  have hz : ∀ v, (List.replicate 256 0).getD v 0 = 0 := by
    intro v
    rw [List.getD_eq_getElem?_getD, List.getElem?_replicate]
    by_cases h : v < 256
    · rw [if_pos h]; rfl
    · rw [if_neg h]; rfl
  refine ⟨?_, ?_, ?_, ?_, ?_, ?_⟩
  · intro v hv
    obtain ⟨a, b, c, d⟩ := h1 v hv
    simp only [hz, Nat.zero_add] at a b c d
    exact ⟨a, b, c, d⟩
  · rw [histogram, h2]; simp
  · rw [histogram, h3]; simp
  · rw [histogram, h4]; simp
  · rw [histogram, h5]; simp
  · rw [histogram, h6]; simp

example : (histogram picture).visible = 14 ∧ (histogram picture).colored = 14 ∧ (histogram picture).red.getD 9 0 = 14 ∧ (histogram picture).alpha.getD 0 0 = 6 := by
  decide +kernel

/-- **C138 (the report), partial.** For every frame with a buffer of its size, not empty and below 2³² pixels, there is a report:
with the number of pixels, the number of visible ones, and the part of the others in percent.

Missing: other buffers (`C138_report_violated`). -/
theorem C138_report_partial (f : Frame) (hb : f.px.length = 4 * (f.w * f.h)) (h0 : 0 < f.w * f.h) (hn : f.w * f.h < 2 ^ 32) :
    ∃ r, analyze f = some r ∧ r.total = f.w * f.h ∧ r.visible = howMany f.px (fun _ _ _ a => decide (a > 0)) ∧
      r.transparency = some (100 * (howMany f.px (fun _ _ _ a => a = 0) : Rat) / (f.w * f.h : Nat)) ∧ r.regions = detectRegions f ∧
      r.contrast ≤ 1 ∧ 0 ≤ r.contrast := by
  obtain ⟨-, hv, -⟩ := C138_counts f
  have hle : (histogram f).visible ≤ f.w * f.h := by
    rw [hv]
    have := howMany_le (l := f.px) (fun _ _ _ a => decide (a > 0))
    rw [hb] at this; omega
  unfold analyze
  simp only
  rw [if_pos ⟨hn, hle⟩]
  refine ⟨_, rfl, rfl, hv, ?_, rfl, ?_, ?_⟩
  · simp only
    rw [if_neg (by omega)]
    have hs := howMany_not (l := f.px) (fun _ _ _ a => decide (a > 0))
    have e : (fun (_ _ _ : Nat) (a : Nat) => !decide (a > 0)) = fun _ _ _ a => decide (a = 0) := by
      funext _ _ _ a
      cases a <;> simp
    rw [e, hb, ← hv] at hs
    have e2 : f.w * f.h - (histogram f).visible = howMany f.px (fun _ _ _ a => a = 0) := by omega
    rw [e2]
    congr 1
    rw [Rat.div_def, Rat.div_def]
    grind
  · simp only
    unfold contrast
    split
    · rw [Rat.min_def]
      split
      · assumption
      · exact Rat.le_refl
    · decide +kernel
  · simp only
    unfold contrast
    split
    · have a : (0 : Rat) ≤ ((histogram f).white : Rat) / ((histogram f).visible : Rat) := by
        rw [Rat.div_def]
        exact Rat.mul_nonneg (Rat.natCast_nonneg) (inv_nonneg _)
      have b : (0 : Rat) ≤ ((histogram f).black : Rat) / ((histogram f).visible : Rat) := by
        rw [Rat.div_def]
        exact Rat.mul_nonneg (Rat.natCast_nonneg) (inv_nonneg _)
      have c := Rat.mul_nonneg a b
      rw [Rat.min_def]
      split
      · exact Rat.mul_nonneg c (by decide +kernel)
      · decide +kernel
    · exact Rat.le_refl

example : (analyze picture).map (fun r => (r.total, r.visible, r.transparency, r.contrast)) = some (20, 14, some 30, 0) := by decide +kernel

/-- **C138 (the report), violated.** A frame whose buffer holds more pixels than its size makes the analyzer panic; an empty
frame has no percentage. -/
theorem C138_report_violated : analyze ⟨1, 1, [0, 0, 0, 255, 0, 0, 0, 255]⟩ = none ∧ (analyze ⟨0, 0, []⟩).map (·.transparency) = some none := by
  decide +kernel

/-- **C138 (the dominant colour), partial.** Each channel of the dominant colour is a value no other value of the channel is
more frequent than; the least of those.

Missing: that the colour is one of the picture (`C138_dominant_violated`). -/
theorem C138_dominant_partial (f : Frame) {r : Report} (h : analyze f = some r) (px : ∀ b ∈ f.px, b < 256) :
    ∃ a b c d, r.dominant = [a, b, c, d] ∧
      (∀ v, howMany f.px (fun x _ _ _ => x = v) ≤ howMany f.px (fun x _ _ _ => x = a)) ∧ (∀ v, v < a → howMany f.px (fun x _ _ _ => x = v) < howMany f.px (fun x _ _ _ => x = a)) ∧
      (∀ v, howMany f.px (fun _ x _ _ => x = v) ≤ howMany f.px (fun _ x _ _ => x = b)) ∧ (∀ v, v < b → howMany f.px (fun _ x _ _ => x = v) < howMany f.px (fun _ x _ _ => x = b)) ∧
      (∀ v, howMany f.px (fun _ _ x _ => x = v) ≤ howMany f.px (fun _ _ x _ => x = c)) ∧ (∀ v, v < c → howMany f.px (fun _ _ x _ => x = v) < howMany f.px (fun _ _ x _ => x = c)) ∧
      (∀ v, howMany f.px (fun _ _ _ x => x = v) ≤ howMany f.px (fun _ _ _ x => x = d)) ∧ (∀ v, v < d → howMany f.px (fun _ _ _ x => x = v) < howMany f.px (fun _ _ _ x => x = d)) := by
  have key : ∀ (t : List Nat) (n : Nat → Nat), t.length = 256 → (∀ v, v < 256 → t.getD v 0 = n v) → (∀ v, 256 ≤ v → n v = 0) →
      (∀ v, n v ≤ n (peak t)) ∧ ∀ v, v < peak t → n v < n (peak t) := by
    intro t n ht h1 h2
    have e : ∀ v, t.getD v 0 = n v := by
      intro v
      by_cases hv : v < 256
      · exact h1 v hv
      · rw [h2 v (by omega), List.getD_eq_getElem?_getD, List.getElem?_eq_none (by omega)]; rfl
    obtain ⟨a, b⟩ := peak_loop t 0 0 0 t rfl (by omega) (by omega) (by omega)
    refine ⟨fun v => ?_, fun v hv => ?_⟩
    · rw [← e, ← e]; exact a v
    · rw [← e, ← e]; exact b v hv
  have hbig : ∀ (P : Nat → Nat → Nat → Nat → Bool), (∀ r g b a, r < 256 → g < 256 → b < 256 → a < 256 → P r g b a = false) → howMany f.px P = 0 := by
    intro P hP
    unfold howMany
    have hlt : ∀ k, f.px.getD k 0 < 256 := by
      intro k
      rw [List.getD_eq_getElem?_getD]
      by_cases hk : k < f.px.length
      · rw [List.getElem?_eq_getElem hk]; exact px _ (List.getElem_mem hk)
      · rw [List.getElem?_eq_none (by omega)]; decide
    rw [List.length_eq_zero_iff, List.filter_eq_nil_iff]
    intro k _
    rw [hP _ _ _ _ (hlt _) (hlt _) (hlt _) (hlt _)]
    decide
  obtain ⟨hc, -⟩ := C138_counts f
  obtain ⟨-, -, -, -, -, -, hT⟩ := hist_loop f.px.length f.px {} (Nat.le_refl _) ⟨List.length_replicate, List.length_replicate, List.length_replicate, List.length_replicate⟩
  have hd : r.dominant = [peak (histogram f).red, peak (histogram f).green, peak (histogram f).blue, peak (histogram f).alpha] := by
    unfold analyze at h
    simp only at h
    split at h
    · rw [← Option.some.inj h]
    · cases h
  obtain ⟨k1, k2⟩ := key (histogram f).red (fun v => howMany f.px (fun x _ _ _ => x = v)) hT.r (fun v hv => (hc v hv).1)
    (fun v hv => hbig _ (fun r _ _ _ h _ _ _ => by simp; omega))
  obtain ⟨k3, k4⟩ := key (histogram f).green (fun v => howMany f.px (fun _ x _ _ => x = v)) hT.g (fun v hv => (hc v hv).2.1)
    (fun v hv => hbig _ (fun _ r _ _ _ h _ _ => by simp; omega))
  obtain ⟨k5, k6⟩ := key (histogram f).blue (fun v => howMany f.px (fun _ _ x _ => x = v)) hT.b (fun v hv => (hc v hv).2.2.1)
    (fun v hv => hbig _ (fun _ _ r _ _ _ h _ => by simp; omega))
  obtain ⟨k7, k8⟩ := key (histogram f).alpha (fun v => howMany f.px (fun _ _ _ x => x = v)) hT.a (fun v hv => (hc v hv).2.2.2)
    (fun v hv => hbig _ (fun _ _ _ r _ _ _ h => by simp; omega))
  exact ⟨_, _, _, _, hd, k1, k2, k3, k4, k5, k6, k7, k8⟩

example : (analyze picture).map (·.dominant) = some [9, 200, 3, 255] := by decide +kernel

/-- **C138 (the dominant colour), violated.** The dominant colour of three pixels of three colours is a fourth colour. -/
theorem C138_dominant_violated :
    (analyze ⟨3, 1, [9, 9, 0, 255, 9, 0, 9, 255, 0, 9, 9, 255]⟩).map (·.dominant) = some [9, 9, 9, 255] := by decide +kernel

/-- **C138 (text).** For every frame: the text areas are, in order, the boxes of the regions that are more than one and a half
times as wide as high, at least 15 and less than 200 high, and above 200 on average in some colour channel; the size of the
font is three quarters of the height, rounded down, and the confidence is between 0 and 1. -/
theorem C138_texts (f : Frame) :
    (textAreas f).map (fun t => (t.x, t.y, t.width, t.height)) =
      ((detectRegions f).filter (fun r => decide (3 * (r.maxY - r.minY + 1) < 2 * (r.maxX - r.minX + 1) ∧
        15 ≤ r.maxY - r.minY + 1 ∧ r.maxY - r.minY + 1 < 200 ∧ ∃ c ∈ r.avg.take 3, 200 < c))).map
        (fun r => (r.minX, r.minY, r.maxX - r.minX + 1, r.maxY - r.minY + 1)) ∧
    ∀ t ∈ textAreas f, t.fontSize = 3 * t.height / 4 ∧ 0 ≤ t.confidence ∧ t.confidence ≤ 1 := by
  have hfloor : ∀ n : Nat, ((n : Rat) * (3 / 4)).floor.toNat = 3 * n / 4 := by
    intro n
    have h1 : 4 * (3 * n / 4) ≤ 3 * n := Nat.mul_div_le _ _
    have h2 : 3 * n < 4 * (3 * n / 4) + 4 := by omega
    generalize 3 * n / 4 = m at *
    have h1 : (4 : Rat) * (m : Rat) ≤ 3 * (n : Rat) := by exact_mod_cast h1
    have h2 : (3 : Rat) * (n : Rat) < 4 * (m : Rat) + 4 := by exact_mod_cast h2
    have a : (m : Int) ≤ ((n : Rat) * (3 / 4)).floor := by
      rw [Rat.le_floor_iff, Rat.intCast_natCast]
      grind
    have b : ((n : Rat) * (3 / 4)).floor < (m : Int) + 1 := by
      have hf := Rat.floor_le ((n : Rat) * (3 / 4))
      have : ((((n : Rat) * (3 / 4)).floor : Int) : Rat) < (((m : Int) + 1 : Int) : Rat) := by
        rw [Rat.intCast_add, Rat.intCast_natCast]; grind
      exact_mod_cast this
    omega
  have htext : ∀ r : Region, isText r = decide (3 * (r.maxY - r.minY + 1) < 2 * (r.maxX - r.minX + 1) ∧
        15 ≤ r.maxY - r.minY + 1 ∧ r.maxY - r.minY + 1 < 200 ∧ ∃ c ∈ r.avg.take 3, 200 < c) := by
    intro r
    have hasp : ∀ w h : Nat, ((w : Rat) / (h + 1 : Nat) > 3 / 2) ↔ 3 * (h + 1) < 2 * w := by
      intro w h
      have hp : (0 : Rat) < ((h + 1 : Nat) : Rat) := by exact_mod_cast Nat.succ_pos h
      have hi := Rat.mul_inv_cancel ((h + 1 : Nat) : Rat) (by grind)
      have hip := Rat.inv_pos.2 hp
      clear hfloor
      rw [Rat.div_def]
      generalize ((h + 1 : Nat) : Rat)⁻¹ = i at *
      constructor
      · intro g
        have : (3 : Rat) * ((h + 1 : Nat) : Rat) < 2 * (w : Rat) := by
          generalize ((h + 1 : Nat) : Rat) = H at *
          have g2 : (0 : Rat) < 2 * ((w : Rat) * i) - 3 := by grind
          have := Rat.mul_pos hp g2
          have e : H * (2 * ((w : Rat) * i) - 3) = 2 * (w : Rat) * (H * i) - 3 * H := by grind
          rw [e, hi] at this
          grind
        exact_mod_cast this
      · intro g
        have : (3 : Rat) * ((h + 1 : Nat) : Rat) < 2 * (w : Rat) := by exact_mod_cast g
        generalize ((h + 1 : Nat) : Rat) = H at *
        have g2 := Rat.mul_pos hip (show (0 : Rat) < 2 * (w : Rat) - 3 * H by grind)
        have e : i * (2 * (w : Rat) - 3 * H) = 2 * ((w : Rat) * i) - 3 * (H * i) := by grind
        rw [e, hi] at g2
        grind
    have havg : (decide (r.avg.getD 0 0 > 200) || decide (r.avg.getD 1 0 > 200) || decide (r.avg.getD 2 0 > 200)) = decide (∃ c ∈ r.avg.take 3, 200 < c) := by
      rcases r.avg with _ | ⟨a, _ | ⟨b, _ | ⟨c, l⟩⟩⟩ <;> simp [Bool.or_assoc]
    unfold isText
    simp only
    rw [havg]
    simp only [hasp, Bool.decide_and]
    simp only [Bool.and_assoc]
  have hconf : ∀ r : Region, 0 ≤ confidence r ∧ confidence r ≤ 1 := by
    intro r
    unfold confidence
    simp only
    split <;> split <;> split <;> exact (by decide +kernel)
  constructor
  · unfold textAreas
    generalize detectRegions f = l
    induction l with
    | nil => rfl
    | cons r l ih =>
      rw [List.filterMap_cons, List.filter_cons, ← htext r]
      cases isText r
      · exact ih
      · simp only [if_true, List.map_cons]
        rw [ih]
  · intro t ht
    unfold textAreas at ht
    obtain ⟨r, -, h⟩ := List.mem_filterMap.1 ht
    split at h
    · have h := (Option.some.inj h).symm
      subst h
      exact ⟨hfloor _, (hconf r).1, (hconf r).2⟩
    · cases h

/-- **C138 (confidence).** For every frame: the confidence of each text area is the sum of the tenths its region earns by its
shape, its brightness and its height. -/
theorem C138_confidence (f : Frame) : ∀ t ∈ textAreas f, ∃ r ∈ detectRegions f, t.x = r.minX ∧ t.y = r.minY ∧
    t.width = r.maxX - r.minX + 1 ∧ t.height = r.maxY - r.minY + 1 ∧ 10 * t.confidence = (tenths t.width t.height r.avg : Rat) := by
  intro t ht
  unfold textAreas at ht
  obtain ⟨r, hr, h⟩ := List.mem_filterMap.1 ht
  split at h
  · have h := (Option.some.inj h).symm
    subst h
    refine ⟨r, hr, rfl, rfl, rfl, rfl, ?_⟩
    simp only
    have hsum : (r.avg.take 3).sum = r.avg.getD 0 0 + r.avg.getD 1 0 + r.avg.getD 2 0 := by
      rcases r.avg with _ | ⟨a, _ | ⟨b, _ | ⟨c, l⟩⟩⟩ <;> simp <;> omega
    have hb : (((r.avg.getD 0 0 + r.avg.getD 1 0 + r.avg.getD 2 0 : Nat) : Rat) / 3 > 200) ↔ 600 < (r.avg.take 3).sum := by
      rw [hsum]
      generalize r.avg.getD 0 0 + r.avg.getD 1 0 + r.avg.getD 2 0 = n
      constructor
      · intro g
        have : (600 : Rat) < (n : Rat) := by grind
        exact_mod_cast this
      · intro g
        have : (600 : Rat) < (n : Rat) := by exact_mod_cast g
        grind
    have ha : ∀ w h : Nat, (2 ≤ (w : Rat) / (h + 1 : Nat) ∧ (w : Rat) / (h + 1 : Nat) < 20) ↔ (2 * (h + 1) ≤ w ∧ w < 20 * (h + 1)) := by
      intro w h
      have hp : (0 : Rat) < ((h + 1 : Nat) : Rat) := by exact_mod_cast Nat.succ_pos h
      rw [show (2 : Rat) ≤ (w : Rat) / (h + 1 : Nat) ↔ 2 * ((h + 1 : Nat) : Rat) ≤ (w : Rat) by
          rw [← Rat.not_lt, Rat.div_lt_iff hp, Rat.not_lt],
        show (w : Rat) / (h + 1 : Nat) < 20 ↔ (w : Rat) < 20 * ((h + 1 : Nat) : Rat) from Rat.div_lt_iff hp]
      constructor
      · rintro ⟨a, b⟩; exact ⟨by exact_mod_cast a, by exact_mod_cast b⟩
      · rintro ⟨a, b⟩; exact ⟨by exact_mod_cast a, by exact_mod_cast b⟩
    unfold confidence tenths
    simp only [ha, hb]
    split <;> split <;> split <;> exact (by decide +kernel)
  · cases h

example : tenths 40 20 [255, 255, 255, 255] = 10 ∧ tenths 39 20 [255, 255, 255, 255] = 7 ∧ tenths 400 20 [255, 0, 0, 255] = 3 := by decide

end Verif.Props.Analyzer
