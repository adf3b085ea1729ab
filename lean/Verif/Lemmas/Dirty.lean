import Verif.Spec.Dirty
namespace Verif.Dirty
open Verif Verif.Spec.Drt

theorem merge_ok {a b : Reg} (ha : Fits a) (hb : Fits b) :
    ∃ m, merge a b = .ok m ∧ Fits m ∧ (∀ x y, In a x y ∨ In b x y → In m x y) ∧
      m.x = min a.x b.x ∧ m.y = min a.y b.y ∧ m.x + m.w = max (a.x + a.w) (b.x + b.w) ∧
      m.y + m.h = max (a.y + a.h) (b.y + b.h) := by
  unfold Fits at *
  unfold merge
  rw [if_neg (by omega)]
  refine ⟨_, rfl, ?_, ?_, ?_⟩
  · constructor <;> simp only <;> omega
  · intro x y h
    unfold In at *
    simp only
    omega
  · refine ⟨?_, ?_, ?_, ?_⟩ <;> simp only <;> omega

theorem addRegion_ok {n : Reg} (hn : Fits n) : ∀ (regs : List Reg), (∀ r ∈ regs, Fits r) →
    ∃ regs', addRegion regs n = .ok regs' ∧ (∀ r ∈ regs', Fits r) ∧
      (∀ x y, (In n x y ∨ ∃ r ∈ regs, In r x y) → ∃ r ∈ regs', In r x y) ∧
      regs'.length ≤ regs.length + 1 := by
  intro regs
  induction regs with
  | nil => intro _; exact ⟨[n], rfl, by simpa using hn, by simp, by simp⟩
  | cons r l ih =>
    intro h
    have hr := h r (by simp)
    have hr' := hr
    have hn' := hn
    unfold Fits at hr' hn'
    simp only [addRegion]
    rw [if_neg (by omega)]
    by_cases ho : regionsOverlap r n = true
    · rw [if_pos ho]
      obtain ⟨m, e, f, c, _⟩ := merge_ok hr hn
      rw [e]
      refine ⟨m :: l, rfl, ?_, ?_, by simp⟩
      · intro q hq
        rcases List.mem_cons.1 hq with rfl | hq
        · exact f
        · exact h q (by simp [hq])
      · intro x y hxy
        rcases hxy with hxy | ⟨q, hq, hxy⟩
        · exact ⟨m, by simp, c x y (.inr hxy)⟩
        · rcases List.mem_cons.1 hq with rfl | hq
          · exact ⟨m, by simp, c x y (.inl hxy)⟩
          · exact ⟨q, by simp [hq], hxy⟩
    · rw [if_neg ho]
      obtain ⟨l', e, f, c, g⟩ := ih (fun q hq => h q (by simp [hq]))
      rw [e]
      refine ⟨r :: l', rfl, ?_, ?_, by simp; omega⟩
      · intro q hq
        rcases List.mem_cons.1 hq with rfl | hq
        · exact hr
        · exact f q hq
      · intro x y hxy
        rcases hxy with hxy | ⟨q, hq, hxy⟩
        · obtain ⟨q, hq, h⟩ := c x y (.inl hxy)
          exact ⟨q, by simp [hq], h⟩
        · rcases List.mem_cons.1 hq with rfl | hq
          · exact ⟨q, by simp, hxy⟩
          · obtain ⟨q, hq, h⟩ := c x y (.inr ⟨q, hq, hxy⟩)
            exact ⟨q, by simp [hq], h⟩

theorem addAll_ok : ∀ (l regs : List Reg), (∀ r ∈ regs, Fits r) → (∀ n ∈ l, Fits n) →
    ∃ regs', addAll regs l = .ok regs' ∧
      (∀ x y, ((∃ n ∈ l, In n x y) ∨ ∃ r ∈ regs, In r x y) → ∃ r ∈ regs', In r x y) := by
  intro l
  induction l with
  | nil => intro regs _ _; exact ⟨regs, rfl, by simp⟩
  | cons n l ih =>
    intro regs h1 h2
    obtain ⟨r1, e, f, c, _⟩ := addRegion_ok (h2 n (by simp)) regs h1
    obtain ⟨r2, e2, c2⟩ := ih r1 f (fun q hq => h2 q (by simp [hq]))
    refine ⟨r2, by simp only [addAll, e, e2], ?_⟩
    intro x y h
    apply c2
    rcases h with ⟨q, hq, h⟩ | h
    · rcases List.mem_cons.1 hq with rfl | hq
      · exact .inr (c x y (.inl h))
      · exact .inl ⟨q, hq, h⟩
    · exact .inr (c x y (.inr h))

theorem mem_irange {a b i : Int} : i ∈ irange a b ↔ a ≤ i ∧ i < b := by
  unfold irange
  simp only [List.mem_map, List.mem_range]
  constructor
  · rintro ⟨k, hk, rfl⟩; omega
  · intro h; exact ⟨(i - a).toNat, by omega, by omega⟩

theorem mem_scanList {s : Corners} {x y : Int} :
    (x, y) ∈ scanList s ↔ s.x0 ≤ x ∧ x < s.x1 ∧ s.y0 ≤ y ∧ y < s.y1 := by
  unfold scanList
  simp only [List.mem_flatMap, List.mem_map, mem_irange, Prod.mk.injEq]
  constructor
  · rintro ⟨y', hy, x', hx, rfl, rfl⟩; omega
  · intro h; exact ⟨y, by omega, x, by omega, rfl, rfl⟩

/-- Some visible pixel of the list has `f`-coordinate `v`. -/
def Att (p : Pixmap) (l : List (Int × Int)) (f : Int × Int → Int) (v : Int) : Prop :=
  ∃ q ∈ l, (p.px q.1 q.2).a ≠ 0 ∧ v = f q

/-- The scan computes the bounding box of the visible pixels seen. -/
theorem scan_spec (p : Pixmap) : ∀ (l : List (Int × Int)) (acc : Corners),
    (∀ q ∈ l, (p.px q.1 q.2).a ≠ 0 →
      (l.foldl (scanStep p) acc).x0 ≤ q.1 ∧ q.1 ≤ (l.foldl (scanStep p) acc).x1 ∧
      (l.foldl (scanStep p) acc).y0 ≤ q.2 ∧ q.2 ≤ (l.foldl (scanStep p) acc).y1) ∧
    ((l.foldl (scanStep p) acc).x0 ≤ acc.x0 ∧ acc.x1 ≤ (l.foldl (scanStep p) acc).x1 ∧
      (l.foldl (scanStep p) acc).y0 ≤ acc.y0 ∧ acc.y1 ≤ (l.foldl (scanStep p) acc).y1) ∧
    ((l.foldl (scanStep p) acc).x0 = acc.x0 ∨ Att p l (·.1) (l.foldl (scanStep p) acc).x0) ∧
    ((l.foldl (scanStep p) acc).x1 = acc.x1 ∨ Att p l (·.1) (l.foldl (scanStep p) acc).x1) ∧
    ((l.foldl (scanStep p) acc).y0 = acc.y0 ∨ Att p l (·.2) (l.foldl (scanStep p) acc).y0) ∧
    ((l.foldl (scanStep p) acc).y1 = acc.y1 ∨ Att p l (·.2) (l.foldl (scanStep p) acc).y1) := by
  intro l
  induction l with
  | nil => intro acc; simp
  | cons q l ih =>
    intro acc
    simp only [List.foldl_cons]
    obtain ⟨i1, i2, i3, i4, i5, i6⟩ := ih (scanStep p acc q)
    generalize l.foldl (scanStep p) (scanStep p acc q) = m at *
    have lift : ∀ {f : Int × Int → Int} {v : Int}, Att p l f v → Att p (q :: l) f v := by
      rintro f v ⟨q', h1, h2⟩; exact ⟨q', by simp [h1], h2⟩
    by_cases hv : (p.px q.1 q.2).a ≠ 0
    · simp only [scanStep, if_pos hv] at i2 i3 i4 i5 i6
      refine ⟨?_, by omega, ?_, ?_, ?_, ?_⟩
      · intro q' hq' h
        rcases List.mem_cons.1 hq' with rfl | hq'
        · omega
        · exact i1 q' hq' h
      · rcases i3 with h | h
        · by_cases hc : acc.x0 ≤ q.1
          · left; omega
          · exact .inr ⟨q, by simp, hv, by simp only; omega⟩
        · exact .inr (lift h)
      · rcases i4 with h | h
        · by_cases hc : q.1 ≤ acc.x1
          · left; omega
          · exact .inr ⟨q, by simp, hv, by simp only; omega⟩
        · exact .inr (lift h)
      · rcases i5 with h | h
        · by_cases hc : acc.y0 ≤ q.2
          · left; omega
          · exact .inr ⟨q, by simp, hv, by simp only; omega⟩
        · exact .inr (lift h)
      · rcases i6 with h | h
        · by_cases hc : q.2 ≤ acc.y1
          · left; omega
          · exact .inr ⟨q, by simp, hv, by simp only; omega⟩
        · exact .inr (lift h)
    · simp only [scanStep, if_neg hv] at i2 i3 i4 i5 i6
      refine ⟨?_, i2, ?_, ?_, ?_, ?_⟩
      · intro q' hq' h
        rcases List.mem_cons.1 hq' with rfl | hq'
        · exact absurd h hv
        · exact i1 q' hq' h
      · exact i3.imp_right lift
      · exact i4.imp_right lift
      · exact i5.imp_right lift
      · exact i6.imp_right lift

/-- Everything about the crop in terms of the visible pixels in the scanned rectangle. -/
theorem crop_spec (p : Pixmap) (hint : Option Corners) (hv : ∀ x y, Visible p x y → InHint hint x y) :
    (crop p hint = none → ∀ x y, ¬ Visible p x y) ∧
    ∀ b, crop p hint = some b →
      (∀ x y, Visible p x y → b.x ≤ x ∧ x < b.x + b.w ∧ b.y ≤ y ∧ y < b.y + b.h) ∧
      (∀ tx ty, b.px tx ty = p.px (b.x + tx) (b.y + ty)) ∧
      (0 ≤ b.x ∧ b.x + b.w ≤ p.w ∧ 0 ≤ b.y ∧ b.y + b.h ≤ p.h) ∧
      (∃ y, Visible p b.x y) ∧ (∃ y, Visible p (b.x + b.w - 1) y) ∧
      (∃ x, Visible p x b.y) ∧ (∃ x, Visible p x (b.y + b.h - 1)) := by
  have hscan : ∀ x y, Visible p x y → (x, y) ∈ scanList (scanRect p hint) := by
    intro x y h
    rw [mem_scanList]
    have hh := hv x y h
    unfold Visible InHint at *
    cases hint with
    | none => simp only [scanRect]; omega
    | some c =>
      have := hh c rfl
      simp only [scanRect]; omega
  have hback : ∀ x y, (x, y) ∈ scanList (scanRect p hint) → (p.px x y).a ≠ 0 → Visible p x y := by
    intro x y h ha
    rw [mem_scanList] at h
    unfold Visible
    cases hint with
    | none => simp only [scanRect] at h; exact ⟨h.1, h.2.1, h.2.2.1, h.2.2.2, ha⟩
    | some c => simp only [scanRect] at h; refine ⟨?_, ?_, ?_, ?_, ha⟩ <;> omega
  have hpos : 0 ≤ (scanRect p hint).x0 ∧ 0 ≤ (scanRect p hint).y0 := by
    cases hint with
    | none => simp [scanRect]
    | some c => simp only [scanRect]; omega
  obtain ⟨s1, s2, s3, s4, s5, s6⟩ := scan_spec p (scanList (scanRect p hint))
    ⟨(scanRect p hint).x1, (scanRect p hint).y1, -1, -1⟩
  unfold crop
  simp only
  by_cases hempty : (scanRect p hint).x1 ≤ (scanRect p hint).x0 ∨ (scanRect p hint).y1 ≤ (scanRect p hint).y0
  · rw [if_pos hempty]
    refine ⟨?_, by simp⟩
    intro _ x y h
    have := mem_scanList.1 (hscan x y h)
    omega
  · rw [if_neg hempty]
    generalize hm : (scanList (scanRect p hint)).foldl (scanStep p)
      ⟨(scanRect p hint).x1, (scanRect p hint).y1, -1, -1⟩ = m at *
    simp only at s2 s3 s4 s5 s6
    by_cases hlt : m.x1 < m.x0
    · rw [if_pos hlt]
      refine ⟨?_, by simp⟩
      intro _ x y h
      have := s1 (x, y) (hscan x y h) h.2.2.2.2
      simp only at this; omega
    · rw [if_neg hlt]
      refine ⟨by simp, ?_⟩
      intro b hb
      simp only [Option.some.injEq] at hb
      subst hb
      -- some visible pixel was seen
      have hm0 : 0 ≤ m.x0 := by
        rcases s3 with h | ⟨q, hq, _, e⟩
        · omega
        · have := mem_scanList.1 (show (q.1, q.2) ∈ _ from hq)
          simp only at e; omega
      obtain ⟨q, hq, hqa, hqe⟩ : ∃ q ∈ scanList (scanRect p hint), (p.px q.1 q.2).a ≠ 0 ∧ m.x1 = q.1 := by
        rcases s4 with h | h
        · omega
        · exact h
      have hq1 := s1 q hq hqa
      have hqm := mem_scanList.1 (show (q.1, q.2) ∈ _ from hq)
      have vis : ∀ q : Int × Int, q ∈ scanList (scanRect p hint) → (p.px q.1 q.2).a ≠ 0 → Visible p q.1 q.2 :=
        fun q h1 h2 => hback q.1 q.2 h1 h2
      obtain ⟨q0, h0, h0a, h0e⟩ : ∃ q ∈ scanList (scanRect p hint), (p.px q.1 q.2).a ≠ 0 ∧ m.x0 = q.1 := by
        rcases s3 with h | h
        · omega
        · exact h
      obtain ⟨q1, h1, h1a, h1e⟩ : ∃ q ∈ scanList (scanRect p hint), (p.px q.1 q.2).a ≠ 0 ∧ m.y0 = q.2 := by
        rcases s5 with h | h
        · omega
        · exact h
      obtain ⟨q2, h2, h2a, h2e⟩ : ∃ q ∈ scanList (scanRect p hint), (p.px q.1 q.2).a ≠ 0 ∧ m.y1 = q.2 := by
        rcases s6 with h | h
        · omega
        · exact h
      have v := vis q hq hqa
      have v0 := vis q0 h0 h0a
      have v1 := vis q1 h1 h1a
      have v2 := vis q2 h2 h2a
      refine ⟨?_, fun _ _ => rfl, ?_, ⟨q0.2, ?_⟩, ⟨q.2, ?_⟩, ⟨q1.1, ?_⟩, ⟨q2.1, ?_⟩⟩
      · intro x y h
        have := s1 (x, y) (hscan x y h) h.2.2.2.2
        simp only at this ⊢; omega
      · have w := v; have w1 := v1; have w2 := v2; have w0 := v0
        unfold Visible at w w1 w2 w0
        simp only; omega
      · simpa [h0e] using v0
      · have : m.x0 + (m.x1 - m.x0 + 1) - 1 = q.1 := by omega
        simp only [this]; exact v
      · simpa [h1e] using v1
      · have : m.y0 + (m.y1 - m.y0 + 1) - 1 = q2.2 := by omega
        simp only [this]; exact v2

theorem clear_px (p : Pixmap) (rx ry rw rh x y : Int) (h : 0 ≤ x ∧ x < p.w ∧ 0 ≤ y ∧ y < p.h) :
    (clearRegion p rx ry rw rh).px x y =
      if rx ≤ x ∧ x < rx + rw ∧ ry ≤ y ∧ y < ry + rh then ⟨0, 0⟩ else p.px x y := by
  unfold clearRegion
  simp only
  split
  · rw [if_neg (by omega)]
  · simp only
    by_cases hin : rx ≤ x ∧ x < rx + rw ∧ ry ≤ y ∧ y < ry + rh
    · rw [if_pos hin, if_pos (by omega)]
    · rw [if_neg hin, if_neg (by omega)]

end Verif.Dirty
