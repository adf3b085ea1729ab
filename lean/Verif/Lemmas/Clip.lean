import Verif.Spec.Clip
/-! Lemmas about clips. -/
namespace Verif.Clip
open Verif Verif.Spec.Clip

theorem crossing_flat (c : Pt) (x x' y : Rat) : crossing c (x, y) (x', y) = 0 := by
  unfold crossing
  simp only
  rw [if_neg (by grind), if_neg (by grind)]

theorem crossing_upright (c : Pt) (x y y' : Rat) : crossing c (x, y) (x, y') =
    if y ≤ c.2 ∧ c.2 < y' ∧ x ≤ c.1 then 1 else if y' ≤ c.2 ∧ c.2 < y ∧ x ≤ c.1 then -1 else 0 := by
  unfold crossing
  have h : x + (c.2 - y) * (x - x) / (y' - y) = x := by
    have : (c.2 - y) * (x - x) = 0 := by grind
    rw [this, Rat.div_def]; grind
  simp only
  rw [h]

/-- The winding number of a rectangle. -/
theorem winding_rect (c : Pt) (x1 y1 x2 y2 : Rat) :
    winding c (x1, y1) [(x1, y1), (x2, y1), (x2, y2), (x1, y2)] =
      (if y1 ≤ c.2 ∧ c.2 < y2 ∧ x2 ≤ c.1 then 1 else if y2 ≤ c.2 ∧ c.2 < y1 ∧ x2 ≤ c.1 then -1 else 0) +
      (if y2 ≤ c.2 ∧ c.2 < y1 ∧ x1 ≤ c.1 then 1 else if y1 ≤ c.2 ∧ c.2 < y2 ∧ x1 ≤ c.1 then -1 else 0) := by
  simp only [winding]
  rw [crossing_flat, crossing_flat, crossing_upright, crossing_upright]
  omega

theorem wind_cases (cx cy x1 y1 x2 y2 : Rat) (n : Int)
    (hn : n = (if y1 ≤ cy ∧ cy < y2 ∧ x2 ≤ cx then 1 else if y2 ≤ cy ∧ cy < y1 ∧ x2 ≤ cx then -1 else 0) +
      (if y2 ≤ cy ∧ cy < y1 ∧ x1 ≤ cx then 1 else if y1 ≤ cy ∧ cy < y2 ∧ x1 ≤ cx then -1 else 0)) :
    (n = 0 ∨ n = 1 ∨ n = -1) ∧
    (n ≠ 0 ↔ (min x1 x2 ≤ cx ∧ cx < max x1 x2) ∧ (min y1 y2 ≤ cy ∧ cy < max y1 y2)) := by
  subst hn
  constructor
  · grind
  · constructor
    · intro h
      have : (y1 ≤ cy ∧ cy < y2) ∨ (y2 ≤ cy ∧ cy < y1) := by grind
      rcases this with g | g
      · have : ¬ (x2 ≤ cx ∧ x1 ≤ cx) ∧ (x2 ≤ cx ∨ x1 ≤ cx) := by grind
        grind
      · have : ¬ (x2 ≤ cx ∧ x1 ≤ cx) ∧ (x2 ≤ cx ∨ x1 ≤ cx) := by grind
        grind
    · intro h
      have : (y1 ≤ cy ∧ cy < y2 ∧ ¬ (y2 ≤ cy ∧ cy < y1)) ∨ (y2 ≤ cy ∧ cy < y1 ∧ ¬ (y1 ≤ cy ∧ cy < y2)) := by grind
      have h2 : (x1 ≤ cx ∧ ¬ x2 ≤ cx) ∨ (x2 ≤ cx ∧ ¬ x1 ≤ cx) := by grind
      rcases this with ⟨g1, g2, g3⟩ | ⟨g1, g2, g3⟩ <;> rcases h2 with ⟨k1, k2⟩ | ⟨k1, k2⟩ <;> grind

/-- The frame's own rectangle winds once around each pixel of the frame. -/
theorem around_frame {w h : Nat} {p : Px} (hx : p.1 < w) (hy : p.2 < h) :
    around (centre p) [(0, 0), ((w : Rat), 0), ((w : Rat), (h : Rat)), (0, (h : Rat))] = -1 := by
  rw [around, winding_rect]
  unfold centre
  simp only
  have h1 : ((p.1 : Rat) + 1) ≤ (w : Rat) := by exact_mod_cast hx
  have h2 : ((p.2 : Rat) + 1) ≤ (h : Rat) := by exact_mod_cast hy
  have h3 : (0 : Rat) ≤ (p.1 : Rat) := Rat.natCast_nonneg
  have h4 : (0 : Rat) ≤ (p.2 : Rat) := Rat.natCast_nonneg
  rw [if_neg (by grind), if_neg (by grind), if_neg (by grind), if_pos (by grind)]
  rfl

/-- The mask shows what the clip shows. -/
theorem vectorMask_iff {w h : Nat} (k : Clip) {p : Px} (hx : p.1 < w) (hy : p.2 < h) :
    vectorMask w h (some k) p = true ↔ Shown k p := by
  have hw := winding_rect (centre p) k.x1 k.y1 k.x2 k.y2
  have hc := wind_cases (centre p).1 (centre p).2 k.x1 k.y1 k.x2 k.y2 _ hw
  have hin : InRect k p ↔ winding (centre p) (k.x1, k.y1) [(k.x1, k.y1), (k.x2, k.y1), (k.x2, k.y2), (k.x1, k.y2)] ≠ 0 :=
    hc.2.symm
  unfold vectorMask Shown maskPath
  simp only
  by_cases hi : k.inverse = true
  · rw [if_pos hi, if_pos hi, hin]
    unfold inside
    simp only [List.map_cons, List.map_nil, List.sum_cons, List.sum_nil]
    rw [around_frame hx hy]
    rw [show around (centre p) [(k.x1, k.y1), (k.x2, k.y1), (k.x2, k.y2), (k.x1, k.y2)] =
      winding (centre p) (k.x1, k.y1) [(k.x1, k.y1), (k.x2, k.y1), (k.x2, k.y2), (k.x1, k.y2)] from rfl]
    rw [decide_eq_true_iff]
    have := hc.1
    omega
  · rw [if_neg hi, if_neg hi, hin]
    unfold inside
    simp only [List.map_cons, List.map_nil, List.sum_cons, List.sum_nil]
    rw [show around (centre p) [(k.x1, k.y1), (k.x2, k.y1), (k.x2, k.y2), (k.x1, k.y2)] =
      winding (centre p) (k.x1, k.y1) [(k.x1, k.y1), (k.x2, k.y1), (k.x2, k.y2), (k.x1, k.y2)] from rfl]
    rw [decide_eq_true_iff]
    omega

theorem rising_last {a : Rat} : ∀ {b : Rat} {cuts : List Rat}, Rising (a :: b :: cuts) → a ≤ (b :: cuts).getLast (by simp)
  | b, [], h => h.1
  | b, c :: cuts, h => by
    have := rising_last (a := b) h.2
    rw [List.getLast_cons (by simp)]
    exact Rat.le_trans h.1 this

/-- Drawing the strips one after another, pixel by pixel. -/
theorem strips_pixel {α : Type} {w h : Nat} (y1 y2 : Rat) (paint : Px → α → α) {p : Px} (hx : p.1 < w) (hy : p.2 < h) :
    ∀ (cuts : List Rat) (a : Rat) (f : Frame α), Rising (a :: cuts) →
      ((strips y1 y2 (a :: cuts)).foldl (fun f k => drawMasked (vectorMask w h (some k)) paint f) f) p =
        if a ≤ (p.1 : Rat) + 1 / 2 ∧ (p.1 : Rat) + 1 / 2 < (a :: cuts).getLast (by simp) ∧ Within p.2 y1 y2 then
          paint p (f p) else f p
  | [], a, f, _ => by
    rw [strips]
    · rw [if_neg (by simp only [List.getLast_singleton]; grind)]; rfl
    · intro _ _ _ h; cases h
  | b :: cuts, a, f, hr => by
    rw [strips, List.foldl_cons, strips_pixel y1 y2 paint hx hy cuts b _ hr.2]
    have hl := rising_last hr
    have hab := hr.1
    have hm := vectorMask_iff (w := w) (h := h) ⟨a, y1, b, y2, false⟩ hx hy
    have hs : Shown ⟨a, y1, b, y2, false⟩ p ↔ (a ≤ (p.1 : Rat) + 1 / 2 ∧ (p.1 : Rat) + 1 / 2 < b) ∧ Within p.2 y1 y2 := by
      show (Within p.1 a b ∧ Within p.2 y1 y2) ↔ _
      unfold Within
      rw [show min a b = a by grind, show max a b = b by grind]
    rw [hs] at hm
    rw [List.getLast_cons (a := a) (l := b :: cuts) (by simp)]
    have hbz : b ≤ (b :: cuts).getLast (by simp) := by
      cases cuts with
      | nil => exact Rat.le_refl
      | cons c cuts => rw [List.getLast_cons (by simp)]; exact rising_last hr.2
    generalize (b :: cuts).getLast (by simp) = z at hl hbz
    unfold drawMasked
    by_cases hw : Within p.2 y1 y2
    · by_cases h1 : a ≤ (p.1 : Rat) + 1 / 2 ∧ (p.1 : Rat) + 1 / 2 < b
      · rw [if_pos (hm.2 ⟨h1, hw⟩), if_neg (by grind), if_pos ⟨h1.1, by grind, hw⟩]
      · rw [if_neg (fun g => h1 (hm.1 g).1)]
        by_cases h2 : b ≤ (p.1 : Rat) + 1 / 2 ∧ (p.1 : Rat) + 1 / 2 < z
        · rw [if_pos ⟨h2.1, h2.2, hw⟩, if_pos ⟨by grind, h2.2, hw⟩]
        · rw [if_neg (fun g => h2 ⟨g.1, g.2.1⟩), if_neg (by grind)]
    · rw [if_neg (fun g => hw g.2.2), if_neg (fun g => hw (hm.1 g).2), if_neg (fun g => hw g.2.2)]

end Verif.Clip
