import Verif.Spec.Layout
import Verif.Lemmas.StrX
/-!
# C119: layout helpers
-/
namespace Verif.Props
open Verif
open Verif.Layout
open Verif.Segment (Move)
open Verif.Spec.Alignment
open Verif.Spec.Layout

/-- **C119 (position), partial.** With `\pos`, or else at the beginning of a `\move`, the alignment point of the text is the given point, if the text is
not aligned to the right.
Missing: text aligned to the right, which is treated as centred (`C119_right_violated`). -/
theorem C119_position_partial (t : Tags) (b : Box) (c : Config) {r : Row} {k : Column} (ha : t.alignment.getD c.alignment = keypad r k) (hk : k ≠ .right) :
    (∀ x y, t.position = some (x, y) → pointX k (calculate t b c).renderX b.width = x ∧ pointY r (calculate t b c).renderY b.height = y ∧
      (calculate t b c).explicit = true) ∧
    (∀ m : Move, t.position = none → t.movement = some m → pointX k (calculate t b c).renderX b.width = m.x1 ∧
      pointY r (calculate t b c).renderY b.height = m.y1 ∧ (calculate t b c).explicit = true) := by
  constructor
  · intro x y h
    simp only [calculate, render, h, effective, ha]
    cases r <;> cases k <;> simp only [pointX, pointY, offsetX, offsetY, keypad] <;> first | (exact absurd rfl hk) | (refine ⟨?_, ?_, ?_⟩ <;> simp <;> grind)
  · intro m h h'
    simp only [calculate, render, h, h', effective, ha]
    cases r <;> cases k <;> simp only [pointX, pointY, offsetX, offsetY, keypad] <;> first | (exact absurd rfl hk) | (refine ⟨?_, ?_, ?_⟩ <;> simp <;> grind)

example : (⟨none, some (500, 300), none, none⟩ : Tags).alignment.getD (⟨1920, 1080, 10, 20, 30, 2⟩ : Config).alignment = keypad .bottom .centre := rfl

/-- **C119 (position), disagreement.** Text aligned to the right is centred on the point given by `\pos`, as if it were aligned to the middle. -/
theorem C119_right_violated (t : Tags) (b : Box) (c : Config) {r : Row} (ha : t.alignment.getD c.alignment = keypad r .right) {x y : Rat}
    (h : t.position = some (x, y)) (hw : b.width ≠ 0) :
    pointX .centre (calculate t b c).renderX b.width = x ∧ pointX .right (calculate t b c).renderX b.width ≠ x := by
  simp only [calculate, render, h, effective, ha]
  cases r <;> simp only [pointX, offsetX, keypad] <;> refine ⟨?_, ?_⟩ <;> simp <;> grind

/-- **C119 (alignment), partial.** Without `\pos` and `\move` the alignment point is where it belongs, and the position is not called explicit; except for
text aligned to the right, and for centred text between different margins. -/
theorem C119_alignment_partial (t : Tags) (b : Box) (c : Config) {r : Row} {k : Column} (ha : t.alignment.getD c.alignment = keypad r k)
    (hp : t.position = none) (hm : t.movement = none) :
    (calculate t b c).explicit = false ∧ pointY r (calculate t b c).renderY b.height = homeY r c.height c.vertical ∧
    (k = .left ∨ (k = .centre ∧ c.left = c.right) → pointX k (calculate t b c).renderX b.width = homeX k c.width c.left c.right) := by
  simp only [calculate, render, hp, hm, effective, ha]
  cases r <;> cases k <;> simp only [pointX, pointY, homeX, homeY, anchorX, anchorY, keypad] <;> refine ⟨?_, ?_, ?_⟩ <;> simp <;> grind

/-- **C119 (alignment), disagreement.** Text aligned to the right is put in the middle of the screen; and centred text ignores the margins. -/
theorem C119_margins_violated (t : Tags) (b : Box) (c : Config) {r : Row} {k : Column} (ha : t.alignment.getD c.alignment = keypad r k)
    (hp : t.position = none) (hm : t.movement = none) (hk : k ≠ .left) :
    pointX .centre (calculate t b c).renderX b.width = c.width / 2 := by
  simp only [calculate, render, hp, hm, effective, ha]
  cases r <;> cases k <;> simp only [pointX, anchorX, keypad] <;> first | (exact absurd rfl hk) | (simp <;> grind)

example : pointX .centre (calculate ⟨some 3, none, none, none⟩ ⟨100, 50⟩ ⟨1920, 1080, 0, 0, 0, 2⟩).renderX 100 = 960 ∧
    homeX .right 1920 0 0 = 1920 := by decide +kernel

/-- **C119 (rotation).** `\org` is the point of rotation, whatever else is given. -/
theorem C119_origin (t : Tags) (b : Box) (c : Config) {x y : Rat} (h : t.origin = some (x, y)) :
    (calculate t b c).originX = x ∧ (calculate t b c).originY = y := by
  simp only [calculate, origin, h]
  exact ⟨rfl, rfl⟩

/-- **C119 (rotation), disagreement.** Without `\org` the point of rotation does not follow `\pos` and `\move`: it is where it would be without them. -/
theorem C119_origin_violated (t : Tags) (b : Box) (c : Config) (p : Option (Rat × Rat)) (m : Option Move) (now start : Nat) :
    (calculateMoving { t with position := p, movement := m } b c now start).originX = (calculate t b c).originX ∧
    (calculateMoving { t with position := p, movement := m } b c now start).originY = (calculate t b c).originY := by
  cases m <;> exact ⟨rfl, rfl⟩

theorem factor_spec (t1 t2 now start : Nat) :
    (now - start ≤ t1 → t1 < t2 → factor t1 t2 now start = 0) ∧ (t2 ≤ now - start → factor t1 t2 now start = 1) ∧
    (t1 < t2 → t1 ≤ now - start → now - start ≤ t2 → factor t1 t2 now start * ((t2 : Rat) - t1) = ((now - start : Nat) : Rat) - t1) := by
  have hc : ∀ a b : Nat, b ≤ a → ((a - b : Nat) : Rat) = (a : Rat) - b := by
    intro a b h
    have : ((a - b + b : Nat) : Rat) = (a : Rat) := by rw [Nat.sub_add_cancel h]
    rw [Rat.natCast_add] at this
    grind
  refine ⟨?_, ?_, ?_⟩
  · intro h1 h2
    unfold factor
    rw [if_pos h2, show now - start - t1 = 0 by omega, Rat.div_def]
    simp [clamp01]
    decide +kernel
  · intro h
    unfold factor
    by_cases h2 : t2 > t1
    · rw [if_pos h2, hc _ t1 (by omega), hc t2 t1 (by omega)]
      have ht : (0 : Rat) < (t2 : Rat) - t1 := by
        have : (t1 : Rat) < t2 := Rat.natCast_lt_natCast.2 h2
        grind
      have hn : (t2 : Rat) ≤ ((now - start : Nat) : Rat) := Rat.natCast_le_natCast.2 h
      generalize ((now - start : Nat) : Rat) = n at *
      have hi : (0 : Rat) < ((t2 : Rat) - t1)⁻¹ := Rat.inv_pos.2 ht
      have hm : ((t2 : Rat) - t1) * ((t2 : Rat) - t1)⁻¹ = 1 := Rat.mul_inv_cancel _ (by grind)
      have hge : (1 : Rat) ≤ (n - t1) / ((t2 : Rat) - t1) := by
        rw [Rat.div_def, ← hm]
        exact Rat.mul_le_mul_of_nonneg_right (by grind) (Rat.le_of_lt hi)
      unfold clamp01
      split
      · grind
      · split
        · rfl
        · grind
    · rw [if_neg h2]
  · intro h2 h3 h4
    unfold factor
    rw [if_pos h2, hc _ t1 h3, hc t2 t1 (by omega)]
    have ht : (0 : Rat) < (t2 : Rat) - t1 := by
      have : (t1 : Rat) < t2 := Rat.natCast_lt_natCast.2 h2
      grind
    have hn : (t1 : Rat) ≤ ((now - start : Nat) : Rat) := Rat.natCast_le_natCast.2 h3
    have hn' : ((now - start : Nat) : Rat) ≤ t2 := Rat.natCast_le_natCast.2 h4
    generalize ((now - start : Nat) : Rat) = n at *
    have hi : (0 : Rat) < ((t2 : Rat) - t1)⁻¹ := Rat.inv_pos.2 ht
    have hm : ((t2 : Rat) - t1) * ((t2 : Rat) - t1)⁻¹ = 1 := Rat.mul_inv_cancel _ (by grind)
    have h0 : 0 ≤ (n - t1) / ((t2 : Rat) - t1) := by
      rw [Rat.div_def]
      exact Rat.mul_nonneg (by grind) (Rat.le_of_lt hi)
    have h1 : (n - t1) / ((t2 : Rat) - t1) ≤ 1 := by
      rw [Rat.div_def, ← hm]
      exact Rat.mul_le_mul_of_nonneg_right (by grind) (Rat.le_of_lt hi)
    have : clamp01 ((n - t1) / ((t2 : Rat) - t1)) = (n - t1) / ((t2 : Rat) - t1) := by
      unfold clamp01
      rw [if_neg (by grind), if_neg (by grind)]
    rw [this, Rat.div_def, Rat.mul_assoc, Rat.mul_comm _⁻¹, hm, Rat.mul_one]

/-- **C119 (movement), partial.** If the times of the movement are taken as milliseconds and the second is later than the first, the alignment point of a text
that is not aligned to the right is at the start until the first time, at the end from the second on, and moves evenly in between.
Missing: text aligned to the right (`C119_right_violated`) and times as tags give them (`C119_hurried_violated`). -/
theorem C119_movement_partial (t : Tags) (b : Box) (c : Config) {r : Row} {k : Column} (ha : t.alignment.getD c.alignment = keypad r k) (hk : k ≠ .right)
    {m : Move} (hm : t.movement = some m) (ht : m.t1 < m.t2) (now start : Nat) (hn : start ≤ now) :
    At m.x1 m.x2 m.t1 m.t2 (now - start) (pointX k (calculateMoving t b c now start).renderX b.width) ∧
    At m.y1 m.y2 m.t1 m.t2 (now - start) (pointY r (calculateMoving t b c now start).renderY b.height) ∧
    (calculateMoving t b c now start).explicit = true := by
  have hx : pointX k (calculateMoving t b c now start).renderX b.width = m.x1 + (m.x2 - m.x1) * factor m.t1 m.t2 now start := by
    simp only [calculateMoving, hm, effective, ha]
    cases r <;> cases k <;> simp only [pointX, offsetX, keypad] <;> first | (exact absurd rfl hk) | (simp <;> grind)
  have hy : pointY r (calculateMoving t b c now start).renderY b.height = m.y1 + (m.y2 - m.y1) * factor m.t1 m.t2 now start := by
    simp only [calculateMoving, hm, effective, ha]
    cases r <;> cases k <;> simp only [pointY, offsetY, keypad] <;> simp <;> grind
  obtain ⟨h1, h2, h3⟩ := factor_spec m.t1 m.t2 now start
  rw [hx, hy]
  refine ⟨?_, ?_, ?_⟩
  · by_cases g1 : now - start ≤ m.t1
    · rw [h1 g1 ht]
      have : m.x1 + (m.x2 - m.x1) * 0 = m.x1 := by grind
      rw [this]
      exact .before g1
    · by_cases g2 : m.t2 ≤ now - start
      · rw [h2 g2]
        have : m.x1 + (m.x2 - m.x1) * 1 = m.x2 := by grind
        rw [this]
        exact .after g2 (by omega)
      · have := h3 ht (by omega) (by omega)
        refine .between _ (by omega) (by omega) ht ?_
        grind
  · by_cases g1 : now - start ≤ m.t1
    · rw [h1 g1 ht]
      have : m.y1 + (m.y2 - m.y1) * 0 = m.y1 := by grind
      rw [this]
      exact .before g1
    · by_cases g2 : m.t2 ≤ now - start
      · rw [h2 g2]
        have : m.y1 + (m.y2 - m.y1) * 1 = m.y2 := by grind
        rw [this]
        exact .after g2 (by omega)
      · have := h3 ht (by omega) (by omega)
        refine .between _ (by omega) (by omega) ht ?_
        grind
  · simp only [calculateMoving, hm]

example : pointX .centre (calculateMoving ⟨none, none, some ⟨100, 100, 500, 300, 0, 1000⟩, none⟩ ⟨100, 50⟩ ⟨1920, 1080, 0, 0, 0, 2⟩ 500 0).renderX 100 = 300 := by
  decide +kernel

/-- **C119 (movement), disagreement.** A movement without times is over at once, and one read from a tag, whose times are kept in hundredths of a second, takes
a tenth of the time asked for: after a tenth of it the text is at the end. -/
theorem C119_hurried_violated (f32 : Str → Option Rat) (h0 : f32 "0".toList = some 0) (h9 : f32 "9".toList = some 9) (b : Box) (c : Config) (a o) :
    (∃ m, Segment.parseMove f32 "(0,0,9,9)".toList = some m ∧
      (calculateMoving ⟨a, none, some m, o⟩ b c 0 0).renderX = 9 - offsetX (effective ⟨a, none, some m, o⟩ c) b) ∧
    (∃ m, Segment.parseMove f32 "(0,0,9,9,0,5000)".toList = some m ∧
      (calculateMoving ⟨a, none, some m, o⟩ b c 500 0).renderX = 9 - offsetX (effective ⟨a, none, some m, o⟩ c) b) := by
  constructor
  · refine ⟨⟨0, 0, 9, 9, 0, 0⟩, ?_, ?_⟩
    · have e : Segment.parts "(0,0,9,9)".toList = ["0".toList, "0".toList, "9".toList, "9".toList] := by decide +kernel
      have t0 : trim "0".toList = "0".toList := by decide +kernel
      have t9 : trim "9".toList = "9".toList := by decide +kernel
      unfold Segment.parseMove
      rw [e]
      dsimp only
      rw [t0, t9, h0, h9]
      rfl
    · show (0 : Rat) + (9 - 0) * factor 0 0 0 0 - _ = _
      rw [show factor 0 0 0 0 = 1 by decide +kernel]
      grind
  · refine ⟨⟨0, 0, 9, 9, 0, 500⟩, ?_, ?_⟩
    · have e : Segment.parts "(0,0,9,9,0,5000)".toList = ["0".toList, "0".toList, "9".toList, "9".toList, "0".toList, "5000".toList] := by decide +kernel
      have t0 : trim "0".toList = "0".toList := by decide +kernel
      have t9 : trim "9".toList = "9".toList := by decide +kernel
      have e1 : Segment.timeOr0 (["0".toList, "5000".toList][0]?) / 10 = 0 := by decide +kernel
      have e2 : Segment.timeOr0 (["0".toList, "5000".toList][1]?) / 10 = 500 := by decide +kernel
      unfold Segment.parseMove
      rw [e]
      dsimp only
      rw [t0, t9, h0, h9, e1, e2]
    · show (0 : Rat) + (9 - 0) * factor 0 500 500 0 - _ = _
      rw [show factor 0 500 500 0 = 1 by decide +kernel]
      grind

/-- **C119 (priority), disagreement.** With both `\pos` and `\move` the two calls disagree: one takes `\pos`, the other `\move`. -/
theorem C119_priority_violated : ∃ (t : Tags) (b : Box) (c : Config), t.position = some (10, 10) ∧
    (calculate t b c).renderX = 10 ∧ (calculateMoving t b c 0 0).renderX = 50 :=
  ⟨⟨some 7, some (10, 10), some ⟨50, 50, 60, 60, 0, 1000⟩, none⟩, ⟨100, 50⟩, ⟨1920, 1080, 0, 0, 0, 2⟩, by decide +kernel⟩

/-- **C119 (scaling).** Scaling takes the corners of the script's canvas to the corners of the screen and keeps proportions, and there is a way back. -/
theorem C119_scale {px py w h : Rat} (hx : px ≠ 0) (hy : py ≠ 0) (hw : w ≠ 0) (hh : h ≠ 0) :
    scale 0 0 px py w h = (0, 0) ∧ scale px py px py w h = (w, h) ∧
    (∀ x y k, scale (k * x) (k * y) px py w h = (k * (scale x y px py w h).1, k * (scale x y px py w h).2)) ∧
    ∀ x y, scale (scale x y px py w h).1 (scale x y px py w h).2 w h px py = (x, y) := by
  have h1 : px * px⁻¹ = 1 := Rat.mul_inv_cancel _ hx
  have h2 : py * py⁻¹ = 1 := Rat.mul_inv_cancel _ hy
  have h3 : w * w⁻¹ = 1 := Rat.mul_inv_cancel _ hw
  have h4 : h * h⁻¹ = 1 := Rat.mul_inv_cancel _ hh
  unfold scale
  simp only [Rat.div_def, Prod.mk.injEq]
  refine ⟨by grind, by grind, by grind, ?_⟩
  intro x y
  generalize px⁻¹ = a at *
  generalize py⁻¹ = b at *
  generalize w⁻¹ = d at *
  generalize h⁻¹ = e at *
  constructor
  · have : x * (w * a) * (px * d) = x * ((px * a) * (w * d)) := by clear h1 h2 h3 h4 hx hy hw hh; grind
    rw [this, h1, h3]; grind
  · have : y * (h * b) * (py * e) = y * ((py * b) * (h * e)) := by clear h1 h2 h3 h4 hx hy hw hh; grind
    rw [this, h2, h4]; grind

/-- **C119 (context), partial.** The context puts the alignment point where it belongs, except that centred text ignores the margins. A new context has no margins
and does not scale. -/
theorem C119_context_partial (c : Context) (r : Row) (k : Column) (w h : Rat) :
    (k = .centre → c.left = c.right) →
    pointX k (c.position (keypad r k) w h).1 w = homeX k c.width c.left c.right ∧ pointY r (c.position (keypad r k) w h).2 h = homeY r c.height c.vertical := by
  intro hc
  cases r <;> cases k <;> simp only [pointX, pointY, homeX, homeY, Context.position, keypad] <;> refine ⟨?_, ?_⟩ <;> simp <;> grind

/-- **C119 (context), disagreement.** Centred text is put in the middle of the screen, whatever the margins. -/
theorem C119_context_violated : ∃ c : Context, pointX .centre (c.position (keypad .bottom .centre) 10 10).1 10 ≠ homeX .centre c.width c.left c.right :=
  ⟨⟨100, 100, 40, 0, 0, 100, 100⟩, by decide +kernel⟩

/-- **C119 (new context).** A new context does not move anything. -/
theorem C119_new {w h : Rat} (hw : w ≠ 0) (hh : h ≠ 0) (x y : Rat) : (Context.new w h).scale x y = (x, y) := by
  have h1 : w * w⁻¹ = 1 := Rat.mul_inv_cancel _ hw
  have h2 : h * h⁻¹ = 1 := Rat.mul_inv_cancel _ hh
  simp only [Context.scale, Context.new, scale, Rat.div_def, Prod.mk.injEq]
  grind

theorem lay_get (al : Nat) (sp mx : Rat) (l : List Str) (i j : Nat) :
    (lay al sp mx i l)[j]? = (l[j]?).map (fun s => ⟨s, indent al mx (lineWidth s), ((i + j : Nat) : Rat) * (50 + sp), lineWidth s, 50, 50 * (4 / 5)⟩) := by
  induction l generalizing i j with
  | nil => rfl
  | cons s l ih =>
    cases j with
    | zero => rfl
    | succ j =>
      rw [lay, List.getElem?_cons_succ, ih, List.getElem?_cons_succ]
      rw [show i + 1 + j = i + (j + 1) by omega]

theorem fold_max (l : List Str) (m : Rat) : m ≤ l.foldl (fun m s => max m (lineWidth s)) m ∧
    (∀ s ∈ l, lineWidth s ≤ l.foldl (fun m s => max m (lineWidth s)) m) ∧
    (l.foldl (fun m s => max m (lineWidth s)) m = m ∨ ∃ s ∈ l, l.foldl (fun m s => max m (lineWidth s)) m = lineWidth s) := by
  induction l generalizing m with
  | nil => simp
  | cons x l ih =>
    obtain ⟨h1, h2, h3⟩ := ih (max m (lineWidth x))
    rw [List.foldl_cons]
    refine ⟨by grind, ?_, ?_⟩
    · intro s hs
      cases hs with
      | head => grind
      | tail _ hs => exact h2 s hs
    · rcases h3 with h3 | ⟨s, hs, h3⟩
      · rw [h3]
        by_cases hm : m ≤ lineWidth x
        · exact .inr ⟨x, by simp, by grind⟩
        · exact .inl (by grind)
      · exact .inr ⟨s, List.mem_cons_of_mem _ hs, h3⟩

theorem joined_eq (l : List Str) : joined l = joinSep '\n' l := by
  induction l with
  | nil => rfl
  | cons a l ih =>
    cases l with
    | nil => rfl
    | cons b l => rw [joined, ih]; rfl; simp

/-- **C119 (lines).** The lines of a text with several lines are its lines in order, one below the other at even distances; they fit in the width given, the widest fills it,
and each is at the left edge, in the middle or at the right edge of it, as aligned; the height reaches to the lower edge of the last line. -/
theorem C119_lines (text : Str) (r : Row) (k : Column) (sp : Rat) :
    joined ((multi text (keypad r k) sp).lines.map (·.text)) = text ∧ (∀ l ∈ (multi text (keypad r k) sp).lines, '\n' ∉ l.text) ∧
    (∀ (i : Nat) (l : Line), (multi text (keypad r k) sp).lines[i]? = some l → l.y = (i : Rat) * (l.height + sp) ∧ l.width ≤ (multi text (keypad r k) sp).width ∧
      pointX k l.x l.width = pointX k 0 (multi text (keypad r k) sp).width) ∧
    (∃ l ∈ (multi text (keypad r k) sp).lines, l.width = (multi text (keypad r k) sp).width) ∧
    ∀ l, (multi text (keypad r k) sp).lines.getLast? = some l → (multi text (keypad r k) sp).height = l.y + l.height := by
  have hget : ∀ i : Nat, (multi text (keypad r k) sp).lines[i]? = ((splitOn '\n' text)[i]?).map (fun s =>
      ⟨s, indent (keypad r k) (maxWidth (splitOn '\n' text)) (lineWidth s), (i : Rat) * (50 + sp), lineWidth s, 50, 50 * (4 / 5)⟩) := by
    intro i
    have := lay_get (keypad r k) sp (maxWidth (splitOn '\n' text)) (splitOn '\n' text) 0 i
    rw [Nat.zero_add] at this
    exact this
  obtain ⟨f1, f2, f3⟩ := fold_max (splitOn '\n' text) 0
  have hne : splitOn '\n' text ≠ [] := splitOn_ne_nil '\n' text
  have hmap : (multi text (keypad r k) sp).lines.map (·.text) = splitOn '\n' text := by
    apply List.ext_getElem?
    intro i
    rw [List.getElem?_map, hget, Option.map_map]
    cases (splitOn '\n' text)[i]? <;> rfl
  have hlen : (multi text (keypad r k) sp).lines.length = (splitOn '\n' text).length := by
    rw [← hmap, List.length_map]
  refine ⟨?_, ?_, ?_, ?_, ?_⟩
  · rw [hmap, joined_eq, joinSep_splitOn]
  · intro l hl
    apply not_mem_of_mem_splitOn (s := text)
    rw [← hmap]
    exact List.mem_map_of_mem hl
  · intro i l hl
    rw [hget] at hl
    cases hs : (splitOn '\n' text)[i]? with
    | none => rw [hs] at hl; cases hl
    | some s =>
      rw [hs] at hl
      cases hl
      have hw := f2 s (List.mem_of_getElem? hs)
      refine ⟨rfl, hw, ?_⟩
      show pointX k (indent (keypad r k) (maxWidth (splitOn '\n' text)) (lineWidth s)) (lineWidth s) = pointX k 0 (maxWidth (splitOn '\n' text))
      generalize maxWidth (splitOn '\n' text) = mx
      generalize lineWidth s = w
      cases r <;> cases k <;> simp only [pointX, indent, keypad] <;> simp <;> grind
  · have key : ∃ s ∈ splitOn '\n' text, lineWidth s = maxWidth (splitOn '\n' text) := by
      rcases f3 with f3 | ⟨s, hs, f3⟩
      · cases hl : splitOn '\n' text with
        | nil => exact absurd hl hne
        | cons a l =>
          refine ⟨a, by simp, ?_⟩
          have h1 := f2 a (by rw [hl]; simp)
          have h2 : 0 ≤ lineWidth a := Rat.mul_nonneg Rat.natCast_nonneg (by decide +kernel)
          rw [hl] at h1 f3
          rw [f3] at h1
          have : maxWidth (a :: l) = 0 := f3
          rw [this]
          grind
      · exact ⟨s, hs, f3.symm⟩
    obtain ⟨s, hs, e⟩ := key
    obtain ⟨i, hi⟩ := List.mem_iff_getElem?.1 hs
    have := hget i
    rw [hi] at this
    exact ⟨_, List.mem_of_getElem? this, e⟩
  · intro l hl
    rw [List.getLast?_eq_getElem?, hlen, hget] at hl
    cases hs : (splitOn '\n' text)[(splitOn '\n' text).length - 1]? with
    | none => rw [hs] at hl; cases hl
    | some s =>
      rw [hs] at hl
      cases hl
      rfl

example : (multi "ab\ncdef".toList (keypad .bottom .right) 10).lines.map (fun l => (l.x, l.y)) = [(40, 0), (0, 60)] := by decide +kernel

/-- **C119 (overlap).** With a spacing that is not negative each line ends above the next one, and all are within the height. -/
theorem C119_apart (text : Str) (al : Nat) {sp : Rat} (hs : 0 ≤ sp) {i j : Nat} {a b : Line} (hi : (multi text al sp).lines[i]? = some a)
    (hj : (multi text al sp).lines[j]? = some b) :
    (i < j → a.y + a.height ≤ b.y) ∧ 0 ≤ a.y ∧ a.y + a.height ≤ (multi text al sp).height := by
  have hget : ∀ i : Nat, (multi text al sp).lines[i]? = ((splitOn '\n' text)[i]?).map (fun s =>
      ⟨s, indent al (maxWidth (splitOn '\n' text)) (lineWidth s), (i : Rat) * (50 + sp), lineWidth s, 50, 50 * (4 / 5)⟩) := by
    intro i
    have := lay_get al sp (maxWidth (splitOn '\n' text)) (splitOn '\n' text) 0 i
    rw [Nat.zero_add] at this
    exact this
  have h5 : (0 : Rat) ≤ 50 + sp := by grind
  rw [hget] at hi hj
  obtain ⟨s, h1, rfl⟩ := Option.map_eq_some_iff.1 hi
  obtain ⟨u, h2, rfl⟩ := Option.map_eq_some_iff.1 hj
  refine ⟨?_, Rat.mul_nonneg Rat.natCast_nonneg h5, ?_⟩
  · intro h
    show (i : Rat) * (50 + sp) + 50 ≤ (j : Rat) * (50 + sp)
    have h' : ((i + 1 : Nat) : Rat) ≤ j := Rat.natCast_le_natCast.2 h
    have := Rat.mul_le_mul_of_nonneg_right h' h5
    rw [Rat.natCast_add] at this
    have e : ((1 : Nat) : Rat) = 1 := rfl
    rw [e] at this
    grind
  · show (i : Rat) * (50 + sp) + 50 ≤ (((splitOn '\n' text).length - 1 : Nat) : Rat) * (50 + sp) + 50
    have hl := (List.getElem?_eq_some_iff.1 h1).1
    have h' : (i : Rat) ≤ ((splitOn '\n' text).length - 1 : Nat) := Rat.natCast_le_natCast.2 (by omega)
    have := Rat.mul_le_mul_of_nonneg_right h' h5
    grind

/-- **C119 (lines), disagreement.** The width counts bytes: a line of as many letters as another is laid out twice as wide if the letters are not ASCII. -/
theorem C119_width_violated : (multi "ab".toList 2 0).width = 40 ∧ (multi "éé".toList 2 0).width = 80 := by decide +kernel

end Verif.Props
