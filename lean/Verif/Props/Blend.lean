import Verif.Lemmas.Blend
/-!
# C43, C78: blending and compositing
-/
namespace Verif.Props.Blend
open Verif Verif.Blend
open Verif.Spec.Blend

/-- The row blend, with or without vectors. -/
def row (simd : Bool) (dst : List Nat) (start : Nat) (cov : List Nat) (p : Px) : Outcome (List Nat) :=
  if simd then blendRowSimd dst start cov p.r p.g p.b p.a else blendRow dst start cov p.r p.g p.b p.a

/-- **C43.**  A premultiplied colour blended over a row `B` of pixels, `A` before it and `C` behind it, each pixel covered by its
own number: with vectors and without, the row becomes the colour over it, rounded to the nearest, and nothing else changes. -/
theorem C43_row (simd : Bool) {p : Px} (hp : p.Premultiplied) {A B C : List Px} {cov : List Nat} (hB : ∀ d ∈ B, d.Bytes)
    (hc : ∀ c ∈ cov, c ≤ 255) (hl : cov.length = B.length) :
    row simd (flat (A ++ B ++ C)) (4 * A.length) cov p = .ok (flat (A ++ List.zipWith (over p) cov B ++ C)) := by
  cases simd
  · exact row_eq hp hB hc hl rfl
  · exact row_simd_eq hp hB hc hl rfl

/-- **C43.**  What becomes of each pixel of the row: its channels are bytes; a premultiplied one stays premultiplied; one that is
not covered stays as it is; one that is covered by an opaque colour in full becomes that colour. -/
theorem C43_pixels (simd : Bool) {p : Px} (hp : p.Premultiplied) {A B C : List Px} {cov : List Nat} (hB : ∀ d ∈ B, d.Bytes)
    (hc : ∀ c ∈ cov, c ≤ 255) (hl : cov.length = B.length) :
    ∃ B', row simd (flat (A ++ B ++ C)) (4 * A.length) cov p = .ok (flat (A ++ B' ++ C)) ∧ B'.length = B.length ∧
      ∀ (i c : Nat) (d : Px), cov[i]? = some c → B[i]? = some d → ∃ d', B'[i]? = some d' ∧ d'.Bytes ∧
        (d.Premultiplied → d'.Premultiplied) ∧ (c = 0 → d' = d) ∧ (c = 255 → p.a = 255 → d' = p) := by
  refine ⟨List.zipWith (over p) cov B, C43_row simd hp hB hc hl, by rw [List.length_zipWith]; omega, ?_⟩
  intro i c d h1 h2
  refine ⟨over p c d, ?_, over_bytes hp (hB d (List.mem_of_getElem? h2)) (hc c (List.mem_of_getElem? h1)), ?_, ?_, ?_⟩
  · rw [List.getElem?_zipWith, h1, h2]
  · intro hd
    exact over_premultiplied hp hd (hc c (List.mem_of_getElem? h1))
  · intro h0
    subst h0
    exact over_zero p d
  · intro h0 ha
    subst h0
    rw [over_full, ha]
    simp only [Nat.sub_self, scale_zero, Nat.add_zero, ← ha]

example : (⟨128, 0, 64, 128⟩ : Px).Premultiplied := by unfold Px.Premultiplied; decide
example : row true (flat [⟨9, 9, 9, 9⟩, ⟨10, 20, 30, 255⟩, ⟨0, 0, 0, 0⟩, ⟨1, 2, 3, 4⟩, ⟨255, 255, 255, 255⟩, ⟨9, 9, 9, 9⟩, ⟨8, 8, 8, 8⟩]) 4
    [255, 0, 128, 7, 255] ⟨128, 0, 64, 128⟩ =
    .ok (flat [⟨9, 9, 9, 9⟩, ⟨133, 10, 79, 255⟩, ⟨0, 0, 0, 0⟩, ⟨65, 1, 34, 67⟩, ⟨255, 251, 253, 255⟩, ⟨132, 4, 68, 132⟩, ⟨8, 8, 8, 8⟩]) := by
  decide

/-- **C78.**  A coverage tile drawn in a colour: every pixel of the frame that the tile covers becomes the colour over it, every
other pixel stays; parts of the tile outside of the frame are left out.  Channels stay bytes and premultiplied pixels stay
premultiplied.  `_partial`: for frames, tiles and positions of moderate size; see `C78_far_violated`. -/
theorem C78_coverage_partial (simd : Bool) {F : List Px} {dw dh tw th : Nat} {cov : List Nat} {x y : Int} {r g b a : Nat}
    (hF : F.length = dw * dh) (hB : ∀ d ∈ F, d.Bytes) (hcl : cov.length = tw * th) (hc : ∀ c ∈ cov, c ≤ 255)
    (hr : r ≤ 255) (hg : g ≤ 255) (hb : b ≤ 255) (ha : a ≤ 255) (h : Moderate dw dh tw th x y) :
    ∃ F', composite simd (flat F) dw dh cov tw th x y r g b a = .ok (flat F') ∧ F'.length = F.length ∧
      (∀ d ∈ F', d.Bytes) ∧ ((∀ d ∈ F, d.Premultiplied) → ∀ d ∈ F', d.Premultiplied) ∧
      ∀ px py : Nat, px < dw → py < dh →
        (∀ i c, Covers tw th x y px py i → cov[i]? = some c →
          F'[py * dw + px]? = F[py * dw + px]?.map (over (premultiply r g b a) c)) ∧
        ((∀ i, ¬ Covers tw th x y px py i) → F'[py * dw + px]? = F[py * dw + px]?) := by
  have hp := premultiply_ok hr hg hb ha
  unfold composite
  by_cases h0 : a = 0
  · rw [if_pos h0]
    refine ⟨F, rfl, rfl, hB, id, ?_⟩
    intro px py _ _
    refine ⟨?_, fun _ => rfl⟩
    intro i c _ _
    subst h0
    have : over (premultiply r g b 0) c = id := by
      funext d
      unfold over premultiply
      simp only [scale_zero, zero_scale, Nat.zero_add, Nat.sub_zero, scale_255, id]
    rw [this, Option.map_id]
    rfl
  · rw [if_neg h0, mul255_eq hr ha, mul255_eq hg ha, mul255_eq hb ha]
    simp only [Verif.Blend.bind]
    rw [asI32_eq h.1, asI32_eq h.2.1, asI32_eq h.2.2.1, asI32_eq h.2.2.2.1]
    rcases clip_cases h with ⟨hcl', hno⟩ | ⟨ty0, tx0, Y0, X0, n, run, ty1, tx1, hcl', hrun, hn, hC⟩
    · rw [hcl']
      refine ⟨F, rfl, rfl, hB, id, ?_⟩
      intro px py hpx hpy
      refine ⟨?_, fun _ => rfl⟩
      rintro i c ⟨tx, ty, h1, h2, h3, h4, _⟩ _
      exact (hno px py tx ty hpx hpy h1 h2 h3 h4).elim
    · rw [hcl']
      simp only [hrun, hn]
      by_cases hr0 : run = 0
      · subst hr0
        exact absurd hrun (by
          have := clip_some_run h hcl'
          omega)
      have e := cov_rows h (Nat.pos_of_ne_zero hr0) simd hC.tile_x hC.frame_x hC.place_x hp hcl hc (n := n) hF hB hC.tile_y hC.frame_y
        hC.place_y
      refine ⟨_, e, rowsOf_length .., ?_, ?_, ?_⟩
      · exact rowsOf_all hC.tile_x (fun i d _ hd => over_bytes hp hd (getD_byte hc i)) hC.tile_y hB
      · exact fun hP => rowsOf_all hC.tile_x (fun i d _ hd => over_premultiplied hp hd (getD_byte hc i)) hC.tile_y hP
      · intro px py hpx hpy
        rw [rowsOf_get hC.frame_x hpx]
        constructor
        · rintro i c ⟨tx, ty, h1, h2, h3, h4, hi⟩ hcov
          have hin := hC.all px py tx ty hpx hpy h1 h2 h3 h4
          rw [if_pos hin]
          have e1 : ty0 + (py - Y0) = ty := by have := hC.place_y; omega
          have e2 : tx0 + (px - X0) = tx := by have := hC.place_x; omega
          rw [e1, Nat.add_assoc, e2, ← hi, List.getD_eq_getElem?_getD, hcov]
          rfl
        · intro hnot
          rw [if_neg]
          rintro ⟨⟨a1, a2⟩, a3, a4⟩
          have b1 := hC.place_y
          have b2 := hC.place_x
          have b3 := hC.tile_y
          have b4 := hC.tile_x
          exact hnot _ ⟨tx0 + (px - X0), ty0 + (py - Y0), by omega, by omega, by omega, by omega, rfl⟩

/-- **C78.**  A bitmap of premultiplied pixels drawn on a frame: every pixel of the frame that the bitmap covers becomes the
bitmap's pixel over it, every other pixel stays.  `_partial`: as above. -/
theorem C78_bitmap_partial {F S : List Px} {dw dh tw th : Nat} {x y : Int} (hF : F.length = dw * dh) (hB : ∀ d ∈ F, d.Bytes)
    (hSl : S.length = tw * th) (hS : ∀ q ∈ S, q.Premultiplied) (h : Moderate dw dh tw th x y) :
    ∃ F', compositeRgba (flat F) dw dh (flat S) tw th x y = .ok (flat F') ∧ F'.length = F.length ∧
      (∀ d ∈ F', d.Bytes) ∧ ((∀ d ∈ F, d.Premultiplied) → ∀ d ∈ F', d.Premultiplied) ∧
      ∀ px py : Nat, px < dw → py < dh →
        (∀ i q, Covers tw th x y px py i → S[i]? = some q → F'[py * dw + px]? = F[py * dw + px]?.map (over q 255)) ∧
        ((∀ i, ¬ Covers tw th x y px py i) → F'[py * dw + px]? = F[py * dw + px]?) := by
  unfold compositeRgba
  rw [asI32_eq h.1, asI32_eq h.2.1, asI32_eq h.2.2.1, asI32_eq h.2.2.2.1]
  rcases clip_cases h with ⟨hcl', hno⟩ | ⟨ty0, tx0, Y0, X0, n, run, ty1, tx1, hcl', hrun, hn, hC⟩
  · rw [hcl']
    refine ⟨F, rfl, rfl, hB, id, ?_⟩
    intro px py hpx hpy
    refine ⟨?_, fun _ => rfl⟩
    rintro i c ⟨tx, ty, h1, h2, h3, h4, _⟩ _
    exact (hno px py tx ty hpx hpy h1 h2 h3 h4).elim
  · rw [hcl']
    simp only [Verif.Blend.bind, hrun, hn]
    have hr0 := clip_some_run h hcl'
    have e := rgba_rows h (run := run) (by omega) hC.tile_x hC.frame_x hC.place_x hS hSl (n := n) hF hB hC.tile_y hC.frame_y
      hC.place_y
    refine ⟨_, e, rowsOf_length .., ?_, ?_, ?_⟩
    · exact rowsOf_all hC.tile_x (fun i d _ hd => over_bytes (pixelAt_ok hS i) hd (Nat.le_refl _)) hC.tile_y hB
    · exact fun hP => rowsOf_all hC.tile_x (fun i d _ hd => over_premultiplied (pixelAt_ok hS i) hd (Nat.le_refl _)) hC.tile_y hP
    · intro px py hpx hpy
      rw [rowsOf_get hC.frame_x hpx]
      constructor
      · rintro i c ⟨tx, ty, h1, h2, h3, h4, hi⟩ hcov
        have hin := hC.all px py tx ty hpx hpy h1 h2 h3 h4
        rw [if_pos hin]
        have e1 : ty0 + (py - Y0) = ty := by have := hC.place_y; omega
        have e2 : tx0 + (px - X0) = tx := by have := hC.place_x; omega
        unfold pixelAt
        rw [e1, Nat.add_assoc, e2, ← hi, List.getD_eq_getElem?_getD, hcov]
        rfl
      · intro hnot
        rw [if_neg]
        rintro ⟨⟨a1, a2⟩, a3, a4⟩
        have b1 := hC.place_y
        have b2 := hC.place_x
        have b3 := hC.tile_y
        have b4 := hC.tile_x
        exact hnot _ ⟨tx0 + (px - X0), ty0 + (py - Y0), by omega, by omega, by omega, by omega, rfl⟩

example : Moderate 1920 1080 300 200 (-20) 1000 := by unfold Moderate; omega
example : Covers 3 2 (-1) 1 1 2 5 := ⟨2, 1, by decide, by decide, by decide, by decide, by decide⟩
example : composite true (flat [⟨0, 0, 0, 0⟩, ⟨1, 1, 1, 1⟩, ⟨2, 2, 2, 2⟩, ⟨3, 3, 3, 3⟩]) 2 2 [255, 255, 255, 255] 2 2 (-1) 1 9 8 7 255 =
    .ok (flat [⟨0, 0, 0, 0⟩, ⟨1, 1, 1, 1⟩, ⟨9, 8, 7, 255⟩, ⟨3, 3, 3, 3⟩]) := by decide

/-- **C78 is violated** for a tile placed as far to the top as a position can be: nothing of it is on the frame, and negating the
position overflows.  The same for a bitmap, and for positions close to that one. -/
theorem C78_far_violated :
    composite false (flat [⟨0, 0, 0, 0⟩]) 1 1 [255] 1 1 0 (-2147483648) 255 255 255 255 = .panic ∧
    compositeRgba (flat [⟨0, 0, 0, 0⟩]) 1 1 (flat [⟨1, 1, 1, 1⟩]) 1 1 0 (-2147483648) = .panic ∧
    composite false (flat [⟨0, 0, 0, 0⟩]) 1 1 [255] 1 1 (-2147483647) 0 255 255 255 255 = .panic ∧
    ∀ i, ¬ Covers 1 1 0 (-2147483648) 0 0 i := by
  refine ⟨by decide, by decide, by decide, ?_⟩
  rintro i ⟨tx, ty, h1, h2, h3, h4, _⟩
  omega

end Verif.Props.Blend
