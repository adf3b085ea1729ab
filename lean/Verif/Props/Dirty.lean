import Verif.Lemmas.Dirty
/-!
# C27, C60 — dirty regions; cropping a layer
-/
namespace Verif.Props
open Verif Verif.Dirty Verif.Spec.Drt

/-- **C27, merging.** Merging two regions covers both and nothing beyond their common bounding box. -/
theorem C27_merge (a b : Reg) (ha : Fits a) (hb : Fits b) :
    ∃ m, merge a b = .ok m ∧ (∀ x y, In a x y ∨ In b x y → In m x y) ∧
      ∀ c, (∀ x y, In a x y ∨ In b x y → In c x y) → (0 < a.w ∧ 0 < a.h ∧ 0 < b.w ∧ 0 < b.h) →
        ∀ x y, In m x y → In c x y := by
  obtain ⟨m, e, _, c, h1, h2, h3, h4⟩ := merge_ok ha hb
  refine ⟨m, e, c, ?_⟩
  intro c hc hpos x y hm
  have k1 := hc a.x a.y (.inl (by unfold In; omega))
  have k2 := hc (a.x + a.w - 1) (a.y + a.h - 1) (.inl (by unfold In; omega))
  have k3 := hc b.x b.y (.inr (by unfold In; omega))
  have k4 := hc (b.x + b.w - 1) (b.y + b.h - 1) (.inr (by unfold In; omega))
  unfold In at *
  omega

/-- **C27.** Reporting any sequence of changes succeeds, and afterwards every pixel of every reported
change lies in some dirty region. -/
theorem C27_all_covered (changes : List Reg) (h : ∀ n ∈ changes, Fits n) :
    ∃ regs, addAll [] changes = .ok regs ∧ ∀ n ∈ changes, ∀ x y, In n x y → ∃ r ∈ regs, In r x y := by
  obtain ⟨regs, e, c⟩ := addAll_ok changes [] (by simp) h
  exact ⟨regs, e, fun n hn x y hxy => c x y (.inl ⟨n, hn, hxy⟩)⟩

example : addAll [] [⟨0, 0, 10, 10⟩, ⟨20, 20, 5, 5⟩, ⟨5, 5, 10, 10⟩, ⟨22, 0, 2, 30⟩] =
    .ok [⟨0, 0, 15, 15⟩, ⟨20, 0, 5, 30⟩] := by decide
example : Fits ⟨5, 5, 10, 10⟩ := by unfold Fits lim; decide

/-- **C27.** The point test of a region is exact. -/
theorem C27_contains_point (r : Reg) (x y : Nat) : containsPoint r x y = true ↔ In r x y := by
  unfold containsPoint In
  simp only [Bool.and_eq_true, decide_eq_true_eq]
  omega

/-- **C27.** A layer that shares a pixel with a region is never skipped: the intersection test answers yes
for bounds `(bx1, by1)`–`(bx2, by2)` containing a pixel of the region. -/
theorem C27_intersects (r : Reg) (bx1 by1 bx2 by2 x y : Nat) (hr : In r x y) (hx : bx1 ≤ x ∧ x ≤ bx2)
    (hy : by1 ≤ y ∧ y ≤ by2) (hlim : x < lim ∧ y < lim) : intersects r bx1 by1 bx2 by2 = true := by
  unfold intersects satAdd In lim at *
  simp only [Bool.not_eq_true', Bool.or_eq_false_iff, decide_eq_false_iff_not]
  omega

/-- **C27.** Two non-empty regions are treated as overlapping exactly when they share a pixel. -/
theorem C27_overlap_exact (r n : Reg) (hr : 0 < r.w ∧ 0 < r.h) (hn : 0 < n.w ∧ 0 < n.h) :
    regionsOverlap r n = true ↔ ∃ x y, In r x y ∧ In n x y := by
  unfold regionsOverlap In
  simp only [Bool.not_eq_true', Bool.or_eq_false_iff, decide_eq_false_iff_not]
  constructor
  · intro h
    exact ⟨max r.x n.x, max r.y n.y, by omega, by omega⟩
  · rintro ⟨x, y, h1, h2⟩
    omega

example : regionsOverlap ⟨0, 0, 10, 10⟩ ⟨9, 9, 5, 5⟩ = true ∧
    regionsOverlap ⟨0, 0, 10, 10⟩ ⟨10, 0, 5, 5⟩ = false := by decide

/-- **C27.** The whole-screen region contains every pixel of every screen. -/
theorem C27_full_screen (x y : Nat) (hx : x < lim - 1) (hy : y < lim - 1) : In fullScreen x y := by
  unfold In fullScreen; simp only; omega

/-- **C27.** The noted bounding box covers all boxes noted. -/
theorem C27_noted (boxes : List Corners) (slot : Option Corners) : ∀ b, (b ∈ boxes ∨ slot = some b) →
    ∃ c, boxes.foldl note slot = some c ∧ c.x0 ≤ b.x0 ∧ c.y0 ≤ b.y0 ∧ b.x1 ≤ c.x1 ∧ b.y1 ≤ c.y1 := by
  induction boxes generalizing slot with
  | nil =>
    intro b hb
    rcases hb with hb | hb
    · simp at hb
    · exact ⟨b, by simpa using hb, by simp⟩
  | cons a l ih =>
    intro b hb
    simp only [List.foldl_cons]
    rcases hb with hb | hb
    · rcases List.mem_cons.1 hb with rfl | hb
      · cases slot with
        | none => exact ih _ b (.inr rfl)
        | some s =>
          obtain ⟨c, h1, h2⟩ := ih (note (some s) b) _ (.inr rfl)
          refine ⟨c, h1, ?_⟩
          simp only at h2
          omega
      · exact ih _ b (.inl hb)
    · subst hb
      obtain ⟨c, h1, h2⟩ := ih (note (some b) a) _ (.inr rfl)
      refine ⟨c, h1, ?_⟩
      simp only at h2
      omega

/-- **C60.** If everything a layer drew lies in the noted bounding box, the cropped bitmap holds every
visible pixel at its place and is as small as possible; there is no bitmap only if nothing is visible. -/
theorem C60_crop_exact (p : Pixmap) (hint : Option Corners) (hv : ∀ x y, Visible p x y → InHint hint x y) :
    (crop p hint = none → ∀ x y, ¬ Visible p x y) ∧
    ∀ b, crop p hint = some b →
      (∀ x y, Visible p x y → b.x ≤ x ∧ x < b.x + b.w ∧ b.y ≤ y ∧ y < b.y + b.h ∧
        b.px (x - b.x) (y - b.y) = p.px x y) ∧
      (∃ y, Visible p b.x y) ∧ (∃ y, Visible p (b.x + b.w - 1) y) ∧
      (∃ x, Visible p x b.y) ∧ (∃ x, Visible p x (b.y + b.h - 1)) := by
  obtain ⟨h1, h2⟩ := crop_spec p hint hv
  refine ⟨h1, fun b hb => ?_⟩
  obtain ⟨a1, a2, _, a4⟩ := h2 b hb
  refine ⟨fun x y h => ?_, a4⟩
  have := a1 x y h
  refine ⟨this.1, this.2.1, this.2.2.1, this.2.2.2, ?_⟩
  rw [a2]
  congr 1 <;> omega

/-- **C60.** Clearing the cropped rectangle afterwards leaves the scratch pixmap without any visible pixel,
ready for the next layer. -/
theorem C60_scratch_clean (p : Pixmap) (hint : Option Corners) (hv : ∀ x y, Visible p x y → InHint hint x y)
    (b : Bitmap) (hb : crop p hint = some b) : ∀ x y, ¬ Visible (clearRegion p b.x b.y b.w b.h) x y := by
  obtain ⟨_, h2⟩ := crop_spec p hint hv
  obtain ⟨a1, _, _, _⟩ := h2 b hb
  intro x y h
  have hdim : (clearRegion p b.x b.y b.w b.h).w = p.w ∧ (clearRegion p b.x b.y b.w b.h).h = p.h := by
    unfold clearRegion; simp only; split <;> exact ⟨rfl, rfl⟩
  unfold Visible at h
  rw [hdim.1, hdim.2, clear_px p _ _ _ _ _ _ ⟨h.1, h.2.1, h.2.2.1, h.2.2.2.1⟩] at h
  split at h
  · simp at h
  · next hn =>
    exact hn (a1 x y h)

/-- A 10 × 10 pixmap with two visible pixels. -/
def demoPixmap : Pixmap := ⟨10, 10, fun x y => if (x = 3 ∧ y = 4) ∨ (x = 6 ∧ y = 2) then ⟨1, 255⟩ else ⟨0, 0⟩⟩
example : (crop demoPixmap (some ⟨2, 2, 7, 5⟩)).map (fun b => (b.x, b.y, b.w, b.h)) = some (3, 2, 4, 3) := by decide
example : ∀ x y, Visible demoPixmap x y → InHint (some ⟨2, 2, 7, 5⟩) x y := by
  intro x y h c hc
  simp only [Option.some.injEq] at hc
  subst hc
  unfold Visible demoPixmap at h
  simp only at h
  by_cases hxy : (x = 3 ∧ y = 4) ∨ (x = 6 ∧ y = 2)
  · simp only; omega
  · rw [if_neg hxy] at h; simp at h

end Verif.Props
