import Verif.Spec.Collision
namespace Verif.Collision
open Verif.Spec.Coll

theorem intersects_iff {a b : Box} : a.intersects b = true ↔
    a.x < b.x + b.w ∧ b.x < a.x + a.w ∧ a.y < b.y + b.h ∧ b.y < a.y + a.h := by
  simp only [Box.intersects, Bool.and_eq_true, decide_eq_true_eq]
  grind

/-- Not in the way is being apart by twice the margin. -/
theorem not_intersects_expand {a b : Box} {m : Rat} :
    (a.expand m).intersects (b.expand m) = false ↔ Apart (2 * m) b a := by
  rw [Bool.eq_false_iff, ne_eq, intersects_iff]
  simp only [Box.expand, Apart]
  grind

theorem apart_not_overlap {d : Rat} (hd : 0 ≤ d) {a b : Box} (h : Apart d a b) : ¬ Overlap a b := by
  unfold Overlap Apart at *; grind

theorem mem_overlapping {placed : List Ev} {m : Rat} {layer : Int} {b o : Box} :
    o ∈ overlapping placed m layer b ↔
      ∃ e ∈ placed, e.bbox = o ∧ e.layer = layer ∧ ¬ Apart (2 * m) b o := by
  simp only [overlapping, List.mem_map, List.mem_filter, Bool.and_eq_true, decide_eq_true_eq]
  constructor
  · rintro ⟨e, ⟨h1, h2, h3⟩, rfl⟩
    refine ⟨e, h1, rfl, h2, ?_⟩
    rw [← not_intersects_expand, h3]; simp
  · rintro ⟨e, h1, rfl, h2, h3⟩
    refine ⟨e, ⟨h1, h2, ?_⟩, rfl⟩
    rw [← not_intersects_expand] at h3
    simpa using h3

theorem le_foldl_max : ∀ (l : List Rat) (a : Rat), a ≤ l.foldl max a ∧ (∀ x ∈ l, x ≤ l.foldl max a) ∧
    (l.foldl max a = a ∨ l.foldl max a ∈ l) := by
  intro l
  induction l with
  | nil => intro a; simp
  | cons x l ih =>
    intro a
    obtain ⟨h1, h2, h3⟩ := ih (max a x)
    simp only [List.foldl_cons]
    refine ⟨by grind, ?_, ?_⟩
    · intro y hy
      rcases List.mem_cons.1 hy with rfl | hy
      · grind
      · exact h2 y hy
    · rcases h3 with h3 | h3
      · rw [h3]
        rcases Rat.le_total (a := a) (b := x) with h | h
        · right; rw [show max a x = x by grind]; simp
        · left; grind
      · exact .inr (List.mem_cons_of_mem _ h3)

theorem foldl_min_le : ∀ (l : List Rat) (a : Rat), l.foldl min a ≤ a ∧ (∀ x ∈ l, l.foldl min a ≤ x) ∧
    (l.foldl min a = a ∨ l.foldl min a ∈ l) := by
  intro l
  induction l with
  | nil => intro a; simp
  | cons x l ih =>
    intro a
    obtain ⟨h1, h2, h3⟩ := ih (min a x)
    simp only [List.foldl_cons]
    refine ⟨by grind, ?_, ?_⟩
    · intro y hy
      rcases List.mem_cons.1 hy with rfl | hy
      · grind
      · exact h2 y hy
    · rcases h3 with h3 | h3
      · rw [h3]
        rcases Rat.le_total (a := a) (b := x) with h | h
        · left; grind
        · right; rw [show min a x = x by grind]; simp
      · exact .inr (List.mem_cons_of_mem _ h3)

/-- The next position lies past every overlapping box, at the edge of one of them. -/
theorem nextY_spec (down : Bool) (m : Rat) (b o : Box) (os : List Box) :
    (down = true → (∀ p ∈ o :: os, p.y + p.h + 2 * m ≤ nextY down m b o os) ∧
      ∃ p ∈ o :: os, nextY down m b o os = p.y + p.h + 2 * m) ∧
    (down = false → (∀ p ∈ o :: os, nextY down m b o os + b.h + 2 * m ≤ p.y) ∧
      ∃ p ∈ o :: os, nextY down m b o os = p.y - b.h - 2 * m) := by
  constructor
  · rintro rfl
    simp only [nextY, if_true]
    obtain ⟨h1, h2, h3⟩ := le_foldl_max (os.map (fun b => b.y + b.h)) (o.y + o.h)
    refine ⟨?_, ?_⟩
    · intro p hp
      rcases List.mem_cons.1 hp with rfl | hp
      · grind
      · have := h2 (p.y + p.h) (List.mem_map.2 ⟨p, hp, rfl⟩); grind
    · rcases h3 with h3 | h3
      · exact ⟨o, by simp, by grind⟩
      · obtain ⟨p, hp, e⟩ := List.mem_map.1 h3
        exact ⟨p, by simp [hp], by grind⟩
  · rintro rfl
    simp only [nextY, Bool.false_eq_true, if_false]
    obtain ⟨h1, h2, h3⟩ := foldl_min_le (os.map (·.y)) o.y
    refine ⟨?_, ?_⟩
    · intro p hp
      rcases List.mem_cons.1 hp with rfl | hp
      · grind
      · have := h2 p.y (List.mem_map.2 ⟨p, hp, rfl⟩); grind
    · rcases h3 with h3 | h3
      · exact ⟨o, by simp, by grind⟩
      · obtain ⟨p, hp, e⟩ := List.mem_map.1 h3
        exact ⟨p, by simp [hp], by grind⟩

/-- Events the box could still run into when moving in its direction. -/
def ahead (down : Bool) (m : Rat) (layer : Int) (b : Box) (e : Ev) : Bool :=
  decide (e.layer = layer) &&
    (if down then decide (b.y < e.bbox.y + e.bbox.h + 2 * m) else decide (e.bbox.y < b.y + b.h + 2 * m))

theorem filter_length_lt {α : Type} {p q : α → Bool} {l : List α} (hpq : ∀ a ∈ l, q a = true → p a = true)
    {a : α} (ha : a ∈ l) (hp : p a = true) (hq : q a = false) : (l.filter q).length < (l.filter p).length := by
  have mono : ∀ l : List α, (∀ a ∈ l, q a = true → p a = true) → (l.filter q).length ≤ (l.filter p).length := by
    intro l
    induction l with
    | nil => intro _; simp
    | cons x l ih =>
      intro h
      have := ih (fun a ha => h a (by simp [ha]))
      by_cases hx : q x = true
      · rw [List.filter_cons_of_pos hx, List.filter_cons_of_pos (h x (by simp) hx)]; simp; exact this
      · rw [List.filter_cons_of_neg hx]
        by_cases hx2 : p x = true
        · rw [List.filter_cons_of_pos hx2]; simp; grind
        · rw [List.filter_cons_of_neg hx2]; exact this
  induction l with
  | nil => simp at ha
  | cons x l ih =>
    rcases List.mem_cons.1 ha with rfl | ha
    · rw [List.filter_cons_of_neg (by simp [hq]), List.filter_cons_of_pos hp]
      have := mono l (fun a ha => hpq a (by simp [ha]))
      simp; grind
    · have := ih (fun a ha => hpq a (by simp [ha])) ha
      by_cases hx : q x = true
      · rw [List.filter_cons_of_pos hx, List.filter_cons_of_pos (hpq x (by simp) hx)]; simp; grind
      · rw [List.filter_cons_of_neg hx]
        by_cases hx2 : p x = true
        · rw [List.filter_cons_of_pos hx2]; simp; grind
        · rw [List.filter_cons_of_neg hx2]; exact this

theorem search_shape (placed : List Ev) (m : Rat) (layer : Int) (down : Bool) : ∀ (k : Nat) (b : Box),
    (search placed m layer down k b).x = b.x ∧ (search placed m layer down k b).w = b.w ∧
    (search placed m layer down k b).h = b.h := by
  intro k
  induction k with
  | zero => intro b; simp [search]
  | succ k ih =>
    intro b
    simp only [search]
    split
    · simp
    · exact ih _

/-- A step moves in the given direction. -/
theorem nextY_dir {placed : List Ev} {m : Rat} {layer : Int} {down : Bool} {b o : Box} {os : List Box}
    (h : overlapping placed m layer b = o :: os) :
    if down then b.y < nextY down m b o os else nextY down m b o os < b.y := by
  have hall : ∀ p ∈ o :: os, ¬ Apart (2 * m) b p := by
    intro p hp
    rw [← h, mem_overlapping] at hp
    obtain ⟨_, _, _, _, h⟩ := hp
    exact h
  obtain ⟨hd, hu⟩ := nextY_spec down m b o os
  cases down with
  | true =>
    simp only [if_true]
    have := (hd rfl).1 o (by simp)
    have h2 := hall o (by simp)
    unfold Apart at h2; grind
  | false =>
    simp only [Bool.false_eq_true, if_false]
    have := (hu rfl).1 o (by simp)
    have h2 := hall o (by simp)
    unfold Apart at h2; grind

theorem search_dir (placed : List Ev) (m : Rat) (layer : Int) (down : Bool) : ∀ (k : Nat) (b : Box),
    if down then b.y ≤ (search placed m layer down k b).y else (search placed m layer down k b).y ≤ b.y := by
  intro k
  induction k with
  | zero => intro b; simp [search]
  | succ k ih =>
    intro b
    simp only [search]
    cases h : overlapping placed m layer b with
    | nil => simp
    | cons o os =>
      simp only
      have := ih { b with y := nextY down m b o os }
      have h2 := nextY_dir (down := down) h
      cases down with
      | true => simp only [if_true] at *; grind
      | false => simp only [Bool.false_eq_true, if_false] at *; grind

theorem search_clear (placed : List Ev) (m : Rat) (layer : Int) (down : Bool) : ∀ (k : Nat) (b : Box),
    (placed.filter (ahead down m layer b)).length < k →
    overlapping placed m layer (search placed m layer down k b) = [] := by
  intro k
  induction k with
  | zero => intro b h; grind
  | succ k ih =>
    intro b hk
    simp only [search]
    cases h : overlapping placed m layer b with
    | nil => simpa using h
    | cons o os =>
      simp only
      apply ih
      have hdir := nextY_dir (down := down) h
      obtain ⟨hd, hu⟩ := nextY_spec down m b o os
      have ho : o ∈ overlapping placed m layer b := by rw [h]; simp
      rw [mem_overlapping] at ho
      obtain ⟨e, he, rfl, hl, hap⟩ := ho
      have : (placed.filter (ahead down m layer { b with y := nextY down m b e.bbox os })).length <
          (placed.filter (ahead down m layer b)).length := by
        apply filter_length_lt (a := e) _ he
        · unfold ahead Apart at *
          cases down
          · simp only [Bool.false_eq_true, if_false, Bool.and_eq_true, decide_eq_true_eq]; exact ⟨hl, by grind⟩
          · simp only [if_true, Bool.and_eq_true, decide_eq_true_eq]; exact ⟨hl, by grind⟩
        · unfold ahead
          cases down
          · simp only [Bool.false_eq_true, if_false, Bool.and_eq_false_iff, decide_eq_false_iff_not]
            have := (hu rfl).1 e.bbox (by simp); right; grind
          · simp only [if_true, Bool.and_eq_false_iff, decide_eq_false_iff_not]
            have := (hd rfl).1 e.bbox (by simp); right; grind
        · intro a _ ha
          unfold ahead at ha ⊢
          cases down
          · simp only [Bool.false_eq_true, if_false, Bool.and_eq_true, decide_eq_true_eq] at *; grind
          · simp only [if_true, Bool.and_eq_true, decide_eq_true_eq] at *; grind
      grind

/-- Without the final clamp the box is apart from every placed box of its layer. -/
theorem search_apart (r : Resolver) (e : Ev) : ∀ p ∈ r.placed, p.layer = e.layer →
    Apart (2 * r.margin)
      (search r.placed r.margin e.layer (pushDown e.alignment) (r.placed.length + 1) e.bbox) p.bbox := by
  intro p hp hl
  have h := search_clear r.placed r.margin e.layer (pushDown e.alignment) (r.placed.length + 1) e.bbox
    (Nat.lt_succ_of_le (List.length_filter_le _ _))
  apply Classical.byContradiction
  intro hn
  have : p.bbox ∈ overlapping r.placed r.margin e.layer
      (search r.placed r.margin e.layer (pushDown e.alignment) (r.placed.length + 1) e.bbox) :=
    mem_overlapping.2 ⟨p, hp, rfl, hl, hn⟩
  rw [h] at this
  simp at this

theorem clamp_bounds {hi y : Rat} (h : 0 ≤ hi) : 0 ≤ clamp 0 hi y ∧ clamp 0 hi y ≤ hi := by
  unfold clamp
  split
  · grind
  · split <;> grind

theorem clamp_interior {hi y : Rat} (h1 : 0 < clamp 0 hi y) (h2 : clamp 0 hi y < hi) : clamp 0 hi y = y := by
  unfold clamp at *
  split at h1
  · grind
  · split at h1
    · next a b => rw [if_neg a, if_pos b] at h2; grind
    · next a b => rw [if_neg a, if_neg b]

theorem search_of_clear {placed : List Ev} {m : Rat} {layer : Int} {down : Bool} {k : Nat} {b : Box}
    (h : ∀ p ∈ placed, p.layer = layer → Apart (2 * m) b p.bbox) : search placed m layer down k b = b := by
  have h0 : overlapping placed m layer b = [] := by
    rw [List.eq_nil_iff_forall_not_mem]
    intro o ho
    rw [mem_overlapping] at ho
    obtain ⟨e, he, rfl, hl, hap⟩ := ho
    exact hap (h e he hl)
  cases k with
  | zero => rfl
  | succ k => simp only [search, h0]

end Verif.Collision
