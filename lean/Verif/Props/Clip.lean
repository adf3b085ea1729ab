import Verif.Lemmas.Clip
/-! Property C134: clips, and the colours and borders of drawings. -/
namespace Verif.Props.Clip
open Verif Verif.Clip
open Verif.Spec.Clip

/-- **C134 (what a clip shows of a drawing).** In every frame and for every rectangle, whichever of its corners are given,
whole or in part outside the frame or without width: a pixel of the frame is drawn through the clip exactly when its centre
is in the rectangle, and through the inverse clip exactly when it is not. -/
theorem C134_mask {w h : Nat} (k : Clip) {p : Px} (hx : p.1 < w) (hy : p.2 < h) :
    (vectorMask w h (some k) p = true ↔ if k.inverse then ¬ InRect k p else InRect k p) ∧ vectorMask w h none p = true :=
  ⟨vectorMask_iff k hx hy, rfl⟩

example : (List.range 5).map (fun i => vectorMask 5 5 (some ⟨4, -1, 3/2, 9, false⟩) (i, 2)) = [false, true, true, true, false] ∧
    (List.range 5).map (fun i => vectorMask 5 5 (some ⟨4, -1, 3/2, 9, true⟩) (i, 2)) = [true, false, false, false, true] := by
  decide +kernel

/-- **C134 (inverse).** A clip and the inverse clip of the same rectangle share the pixels of the frame between them:
drawing through one and then through the other is drawing without a clip. -/
theorem C134_inverse {α : Type} {w h : Nat} (x1 y1 x2 y2 : Rat) (paint : Px → α → α) (f : Frame α) {p : Px} (hx : p.1 < w)
    (hy : p.2 < h) (i : Bool) :
    drawMasked (vectorMask w h (some ⟨x1, y1, x2, y2, !i⟩)) paint
      (drawMasked (vectorMask w h (some ⟨x1, y1, x2, y2, i⟩)) paint f) p = paint p (f p) := by
  have h1 := vectorMask_iff (w := w) (h := h) ⟨x1, y1, x2, y2, i⟩ hx hy
  have h2 := vectorMask_iff (w := w) (h := h) ⟨x1, y1, x2, y2, !i⟩ hx hy
  have h3 : Shown ⟨x1, y1, x2, y2, !i⟩ p ↔ ¬ Shown ⟨x1, y1, x2, y2, i⟩ p := by
    unfold Shown
    have e : InRect ⟨x1, y1, x2, y2, !i⟩ p ↔ InRect ⟨x1, y1, x2, y2, i⟩ p := Iff.rfl
    cases i
    · exact not_congr e
    · exact e.trans Classical.not_not.symm
  unfold drawMasked
  by_cases hs : Shown ⟨x1, y1, x2, y2, i⟩ p
  · rw [if_neg (fun g => (h3.1 (h2.1 g)) hs), if_pos (h1.2 hs)]
  · rw [if_pos (h2.2 (h3.2 hs)), if_neg (fun g => hs (h1.1 g))]

example : drawMasked (vectorMask 9 9 (some ⟨3, 2, 5/2, 8, true⟩)) (fun _ c => c + 1)
    (drawMasked (vectorMask 9 9 (some ⟨3, 2, 5/2, 8, false⟩)) (fun _ c => c + 1) (fun _ => 7)) (2, 4) = 8 :=
  C134_inverse 3 2 (5/2) 8 (fun _ c => c + 1) (fun _ => 7) (by decide) (by decide) false

/-- **C134 (strips of a drawing leave no seams).** A drawing cut into any number of strips side by side, at any places, each
drawn through its own clip, gives pixel for pixel what drawing it once through the clip from the first cut to the last
gives. -/
theorem C134_strips {α : Type} {w h : Nat} (y1 y2 : Rat) (a : Rat) (cuts : List Rat) (paint : Px → α → α) (f : Frame α)
    (hr : Rising (a :: cuts)) {p : Px} (hx : p.1 < w) (hy : p.2 < h) :
    ((strips y1 y2 (a :: cuts)).foldl (fun f k => drawMasked (vectorMask w h (some k)) paint f) f) p =
      drawMasked (vectorMask w h (some ⟨a, y1, (a :: cuts).getLast (by simp), y2, false⟩)) paint f p := by
  rw [strips_pixel y1 y2 paint hx hy cuts a f hr]
  have hm := vectorMask_iff (w := w) (h := h) ⟨a, y1, (a :: cuts).getLast (by simp), y2, false⟩ hx hy
  have hl : a ≤ (a :: cuts).getLast (by simp) := by
    cases cuts with
    | nil => exact Rat.le_refl
    | cons b cuts => rw [List.getLast_cons (by simp)]; exact rising_last hr
  have hs : Shown ⟨a, y1, (a :: cuts).getLast (by simp), y2, false⟩ p ↔
      (a ≤ (p.1 : Rat) + 1 / 2 ∧ (p.1 : Rat) + 1 / 2 < (a :: cuts).getLast (by simp)) ∧ Within p.2 y1 y2 := by
    show (Within p.1 a _ ∧ Within p.2 y1 y2) ↔ _
    unfold Within
    generalize (a :: cuts).getLast (by simp) = z at hl
    rw [show min a z = a by grind, show max a z = z by grind]
  rw [hs] at hm
  unfold drawMasked
  by_cases hv : vectorMask w h (some ⟨a, y1, (a :: cuts).getLast (by simp), y2, false⟩) p = true
  · rw [if_pos hv, if_pos ⟨(hm.1 hv).1.1, (hm.1 hv).1.2, (hm.1 hv).2⟩]
  · rw [if_neg hv, if_neg (fun g => hv (hm.2 ⟨⟨g.1, g.2.1⟩, g.2.2⟩))]

/-- Three strips cut at fractions of a pixel. -/
example : Rising [1, 5/3, 10/3, 6] ∧ (List.range 7).map (fun i =>
    ((strips 0 4 [1, 5/3, 10/3, 6]).foldl (fun f k => drawMasked (vectorMask 7 4 (some k)) (fun _ c => c + 1) f)
      (fun _ => 0)) (i, 3)) = [0, 1, 1, 1, 1, 1, 0] := by
  refine ⟨⟨by decide +kernel, by decide +kernel, by decide +kernel, trivial⟩, by decide +kernel⟩

private theorem overlap_whole (i : Nat) (a b : Int) :
    overlap i (a : Rat) (b : Rat) = if Within i (a : Rat) (b : Rat) then 1 else 0 := by
  have key : ∀ c : Int, (c : Rat) ≤ (i : Rat) ∨ (i : Rat) + 1 ≤ (c : Rat) := by
    intro c
    rcases Int.lt_or_le (i : Int) c with g | g
    · right; exact_mod_cast g
    · left; exact_mod_cast g
  have h1 := key a
  have h2 := key b
  by_cases h : Within i (a : Rat) (b : Rat)
  · rw [if_pos h]
    unfold Within at h
    unfold overlap
    grind
  · rw [if_neg h]
    unfold Within at h
    unfold overlap
    grind

/-- **C134 (clipped text), partial.** Where the corners of the clip are at whole pixels, a pixel of text is shown in full or
not at all, by the same rule as a drawing's; so strips at whole pixels leave no seams.

Missing: corners at fractions of a pixel (`C134_text_violated`). -/
theorem C134_text_partial (x1 y1 x2 y2 : Int) (i : Bool) (p : Px) :
    textMask ⟨x1, y1, x2, y2, i⟩ p = if Shown ⟨x1, y1, x2, y2, i⟩ p then 1 else 0 := by
  unfold textMask
  simp only
  rw [overlap_whole, overlap_whole]
  unfold Shown InRect
  simp only
  by_cases h1 : Within p.1 (x1 : Rat) (x2 : Rat) <;> by_cases h2 : Within p.2 (y1 : Rat) (y2 : Rat) <;> cases i <;>
    simp [h1, h2] <;> grind

example : textMask ⟨5, 0, 2, 9, false⟩ (3, 3) = 1 ∧ textMask ⟨5, 0, 2, 9, true⟩ (3, 3) = 0 := by decide +kernel

/-- **C134 (strips of text have seams), violated.** Text cut into two strips whose common edge is not at a whole pixel (as
happens whenever the frame is not as large as the script says) is not painted in full there: for every cut within the
pixel, less than all of the pixel is painted although the strips cover it, by a quarter at worst.  The same cut of a
drawing leaves no seam (`C134_strips`). -/
theorem C134_text_violated : (∀ m : Rat, 0 < m → m < 1 → blend (1 - m) (blend m 0) < 1 ∧ 3 / 4 ≤ blend (1 - m) (blend m 0)) ∧
    ∃ k₁ k₂ : Clip, ∃ p : Px, k₁.x2 = k₂.x1 ∧ k₁.x1 ≤ (p.1 : Rat) ∧ (p.1 : Rat) + 1 ≤ k₂.x2 ∧
      blend (textMask k₂ p) (blend (textMask k₁ p) 0) = 3 / 4 ∧ textMask ⟨k₁.x1, k₁.y1, k₂.x2, k₂.y2, false⟩ p = 1 := by
  constructor
  · intro m h0 h1
    unfold blend
    have h2 : 0 < m * (1 - m) := Rat.mul_pos h0 (by grind)
    have h3 : 0 ≤ (m - 1 / 2) * (m - 1 / 2) := by
      rcases Rat.le_total (a := m - 1 / 2) (b := 0) with g | g
      · have := Rat.mul_nonneg (a := 1 / 2 - m) (b := 1 / 2 - m) (by grind) (by grind)
        grind
      · exact Rat.mul_nonneg g g
    grind
  · exact ⟨⟨0, 0, 9/2, 9, false⟩, ⟨9/2, 0, 9, 9, false⟩, (4, 4), by decide +kernel⟩

/-- **C134 (the fill of a drawing).** Its colour is that of the tag, with the opacity of the style (full without one), or
else the style's colour, or else white; an opacity tag for the fill, or else for everything, replaces the opacity. -/
theorem C134_fill (g : Given) :
    ((fillColor g).r, (fillColor g).g, (fillColor g).b) =
      (match g.primary, g.style with
        | some c, _ => (c.r, c.g, c.b)
        | none, some (s, _) => (s.r, s.g, s.b)
        | none, none => (255, 255, 255)) ∧
    (fillColor g).a =
      (match g.alpha1, g.alpha, g.style with
        | some a, _, _ => a
        | none, some a, _ => a
        | none, none, some (s, _) => s.a
        | none, none, none => 255) := by
  obtain ⟨p, o, a, a1, a3, b, bx, by_, s⟩ := g
  unfold fillColor
  cases p <;> cases a1 <;> cases a <;> cases s <;> exact ⟨rfl, rfl⟩

example : fillColor ⟨some ⟨1, 2, 3, 0⟩, none, some 40, none, none, none, none, none, some (⟨9, 9, 9, 99⟩, ⟨0, 0, 0, 255⟩, 2)⟩ =
    ⟨1, 2, 3, 40⟩ := by decide

/-- **C134 (the border of a drawing), partial.** A drawing has a border exactly when a border tag gives it a width above
zero; the border has the colour of the tag, or else the style's, or else black, with the opacity by the same order as the
fill's.

Missing: the border the style gives, and how far it reaches (`C134_border_violated`). -/
theorem C134_border_partial (g : Given) (scaled : Bool) (sy : Rat) (hsy : 0 < sy) :
    (stroke g scaled sy ≠ none ↔ ∃ w, (g.borderX = some w ∨ (g.borderX = none ∧ g.border = some w)) ∧ 0 < w) ∧
    ∀ c w, stroke g scaled sy = some (c, w) →
      (c.r, c.g, c.b) = (match g.outline, g.style with
        | some c, _ => (c.r, c.g, c.b)
        | none, some (_, o, _) => (o.r, o.g, o.b)
        | none, none => (0, 0, 0)) ∧
      c.a = (match g.alpha3, g.alpha, g.style with
        | some a, _, _ => a
        | none, some a, _ => a
        | none, none, some (_, o, _) => o.a
        | none, none, none => 255) := by
  constructor
  · have hw : 0 < borderWidth g scaled sy ↔ ∃ w, (g.borderX = some w ∨ (g.borderX = none ∧ g.border = some w)) ∧ 0 < w := by
      have key : ∀ w : Rat, 0 < (if scaled = true then w * sy else w) ↔ 0 < w := by
        intro w
        cases scaled
        · exact Iff.rfl
        · constructor
          · intro h
            apply Classical.byContradiction
            intro hn
            have := Rat.mul_nonneg (a := -w) (b := sy) (by grind) (by grind)
            rw [if_pos rfl] at h
            grind
          · intro h; exact Rat.mul_pos h hsy
      unfold borderWidth
      cases hx : g.borderX with
      | some w =>
        simp only [Option.some_or]
        rw [key]
        constructor
        · exact fun h => ⟨w, Or.inl rfl, h⟩
        · rintro ⟨v, h | ⟨h, -⟩, hv⟩
          · obtain rfl := Option.some.inj h; exact hv
          · cases h
      | none =>
        simp only [Option.none_or]
        cases hb : g.border with
        | some w =>
          simp only
          rw [key]
          constructor
          · exact fun h => ⟨w, Or.inr ⟨trivial, rfl⟩, h⟩
          · rintro ⟨v, h | ⟨-, h⟩, hv⟩
            · cases h
            · obtain rfl := Option.some.inj h; exact hv
        | none =>
          simp only
          constructor
          · intro h; exact absurd h (by decide)
          · rintro ⟨v, h | ⟨-, h⟩, hv⟩ <;> cases h
    rw [← hw]
    unfold stroke
    by_cases h : 0 < borderWidth g scaled sy
    · rw [if_pos h]; simp [h]
    · rw [if_neg h]; simp [h]
  · intro c w h
    unfold stroke at h
    split at h
    · obtain ⟨p, o, a, a1, a3, b, bx, by_, s⟩ := g
      simp only [Option.some.injEq, Prod.mk.injEq] at h
      rw [← h.1]
      cases o <;> cases a3 <;> cases a <;> cases s <;> exact ⟨rfl, rfl⟩
    · cases h

example : stroke ⟨none, some ⟨1, 2, 3, 0⟩, none, none, none, some 4, none, none, none⟩ true (1/2) = some (⟨1, 2, 3, 255⟩, 2) := by
  decide +kernel

/-- **C134 (how wide the border is), violated.** The width asked for is the width of a line drawn along the edge of the
shape, half of it inside: outside the shape only half the border asked for is seen.  And a drawing has no border at all
when only its style, or only the tag for the vertical width, gives one. -/
theorem C134_border_violated :
    (∀ (g : Given) (w : Rat), g.borderX = none → g.border = some w → 0 < w →
      ∃ c, stroke g false 1 = some (c, w) ∧ reach w < w) ∧
    (∀ (g : Given) (sy : Rat) (scaled : Bool), g.borderX = none → g.border = none → stroke g scaled sy = none) ∧
    stroke ⟨none, none, none, none, none, none, none, some 3, some (⟨255, 255, 255, 255⟩, ⟨0, 0, 0, 255⟩, 2)⟩ true 1 = none := by
  refine ⟨?_, ?_, by decide +kernel⟩
  · intro g w h1 h2 hw
    have hb : borderWidth g false 1 = w := by
      unfold borderWidth
      rw [h1, h2]
      rfl
    unfold stroke
    rw [hb, if_pos hw]
    exact ⟨_, rfl, by unfold reach; grind⟩
  · intro g sy scaled h1 h2
    have hb : borderWidth g scaled sy = 0 := by
      unfold borderWidth
      rw [h1, h2]
      rfl
    unfold stroke
    rw [hb, if_neg (by decide)]

end Verif.Props.Clip
