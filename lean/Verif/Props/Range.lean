import Verif.Spec.Range
/-!
# C16 — range algebra
-/
namespace Verif.Props
open Verif.Pos Verif.Spec

/-- **C16.** Every constructor and operation yields an ordered range. -/
theorem C16_constructors_ordered (a b p : Nat) (r s : Range) (hr : Ordered r) (hs : Ordered s) :
    Ordered (Range.new a b) ∧ Ordered (Range.empty p) ∧ Ordered (r.extendTo p) ∧
    Ordered (r.union s) ∧ (∀ t, r.inter s = some t → Ordered t) ∧ Ordered (Selection.range ⟨a, b⟩) := by
  have hnew : ∀ a b, Ordered (Range.new a b) := by
    intro a b; unfold Range.new Ordered; split <;> simp <;> omega
  unfold Ordered at *
  refine ⟨hnew a b, by simp [Range.empty], ?_, ?_, ?_, hnew a b⟩
  · simp only [Range.extendTo]; omega
  · simp only [Range.union]; omega
  · intro t ht
    simp only [Range.inter] at ht
    split at ht
    · injection ht with ht; subst ht; exact hnew _ _
    · simp at ht

example : Ordered (Range.new 9 4) ∧ Range.new 9 4 = ⟨4, 9⟩ := by decide

/-- **C16.** The order of the two end points does not matter. -/
theorem C16_new_symmetric (a b : Nat) : Range.new a b = Range.new b a := by
  unfold Range.new
  split <;> split <;> first | rfl | (congr 1 <;> omega)

example : Range.new 3 8 = Range.new 8 3 := by decide

/-- **C16.** `contains` is membership. -/
theorem C16_contains (r : Range) (p : Nat) : r.contains p = true ↔ In p r := by
  simp [Range.contains, In]

example : (Range.new 2 5).contains 5 = false := by decide

/-- **C16.** `len` is the number of positions in the range, `is_empty` says there is none. -/
theorem C16_len (r : Range) (hr : Ordered r) :
    r.len = ((List.range r.fin).filter (fun p => r.contains p)).length ∧
    (r.isEmpty = true ↔ ∀ p, ¬ In p r) := by
  unfold Ordered at hr
  constructor
  · have key : ∀ n, ((List.range n).filter (fun p => decide (r.start ≤ p))).length = n - r.start := by
      intro n
      induction n with
      | zero => simp
      | succ n ih =>
        rw [List.range_succ, List.filter_append, List.length_append, ih]
        by_cases h : r.start ≤ n
        · simp [h]; omega
        · simp [h]; omega
    have : (List.range r.fin).filter (fun p => r.contains p) =
        (List.range r.fin).filter (fun p => decide (r.start ≤ p)) := by
      apply List.filter_congr
      intro p hp
      simp only [List.mem_range] at hp
      simp [Range.contains, hp]
    rw [this, key]; rfl
  · simp only [Range.isEmpty, beq_iff_eq, In]
    constructor
    · intro h p; omega
    · intro h
      have := h r.start
      omega

example : (Range.new 2 5).len = 3 ∧ (Range.new 4 4).isEmpty = true := by decide

/-- **C16.** For non-empty ranges, `overlaps` says exactly that some position is in both. -/
theorem C16_overlaps (r s : Range) (hr : r.start < r.fin) (hs : s.start < s.fin) :
    r.overlaps s = true ↔ ∃ p, In p r ∧ In p s := by
  simp only [Range.overlaps, Bool.and_eq_true, decide_eq_true_eq, In]
  constructor
  · intro h; exact ⟨max r.start s.start, by omega⟩
  · rintro ⟨p, h⟩; omega

example : (Range.new 2 5).overlaps (Range.new 4 9) = true ∧
    (Range.new 2 5).overlaps (Range.new 5 9) = false := by decide

/-- **C16, disagreement.** For an empty range inside another the code reports an overlap although
no position is shared. -/
theorem C16_overlaps_empty_violated :
    ¬ ∀ r s : Range, Ordered r → Ordered s → (r.overlaps s = true ↔ ∃ p, In p r ∧ In p s) := by
  intro h
  have := (h ⟨3, 3⟩ ⟨0, 10⟩ (by decide) (by decide)).1 (by decide)
  obtain ⟨p, hp, _⟩ := this
  unfold In at hp
  simp at hp
  omega

/-- **C16.** The intersection has exactly the common positions; it is absent when there are none. -/
theorem C16_intersection (r s : Range) :
    (∀ t, r.inter s = some t → ∀ p, In p t ↔ In p r ∧ In p s) ∧
    (r.inter s = none ↔ ∀ p, ¬ (In p r ∧ In p s)) := by
  constructor
  · intro t ht p
    simp only [Range.inter] at ht
    split at ht
    · next h =>
      injection ht with ht
      subst ht
      simp only [Range.new, In]
      rw [if_pos (by omega)]
      simp only; omega
    · simp at ht
  · simp only [Range.inter, In]
    split
    · next h =>
      constructor
      · intro h'; simp at h'
      · intro h'
        exact absurd (h' (max r.start s.start)) (by omega)
    · next h =>
      constructor
      · intro _ p; omega
      · intro _; rfl

example : (Range.new 2 6).inter (Range.new 4 9) = some ⟨4, 6⟩ ∧
    (Range.new 2 4).inter (Range.new 4 9) = none := by decide

/-- **C16.** The union is the smallest range covering both. -/
theorem C16_union (r s : Range) (hr : r.start < r.fin) (hs : s.start < s.fin) :
    (∀ p, In p r ∨ In p s → In p (r.union s)) ∧
    (∀ t, (∀ p, In p r ∨ In p s → In p t) → ∀ p, In p (r.union s) → In p t) := by
  simp only [Range.union, In]
  constructor
  · intro p h; omega
  · intro t h p hp
    have h1 := h r.start (by omega)
    have h2 := h s.start (by omega)
    have h3 := h (r.fin - 1) (by omega)
    have h4 := h (s.fin - 1) (by omega)
    omega

example : (Range.new 2 4).union (Range.new 7 9) = ⟨2, 9⟩ := by decide

/-- **C16.** `extend_to` is the smallest range from the old one reaching the position. -/
theorem C16_extend_to (r : Range) (q : Nat) :
    (∀ p, In p r → In p (r.extendTo q)) ∧ (r.extendTo q).start ≤ q ∧ q ≤ (r.extendTo q).fin ∧
    ∀ a b, a ≤ r.start → r.fin ≤ b → a ≤ q → q ≤ b →
      a ≤ (r.extendTo q).start ∧ (r.extendTo q).fin ≤ b := by
  simp only [Range.extendTo, In]
  refine ⟨?_, by omega, by omega, ?_⟩
  · intro p h; omega
  · intro a b; omega

example : (Range.new 2 4).extendTo 9 = ⟨2, 9⟩ ∧ (Range.new 2 4).extendTo 1 = ⟨1, 4⟩ := by decide

/-- **C16.** A selection's range does not depend on its direction, and it is reversed exactly
when the cursor comes first. -/
theorem C16_selection (s : Selection) :
    (s.isReversed = true ↔ s.cursor < s.anchor) ∧
    (s.isReversed = true → s.range = ⟨s.cursor, s.anchor⟩) ∧
    (s.isReversed = false → s.range = ⟨s.anchor, s.cursor⟩) := by
  simp only [Selection.isReversed, Selection.range, Range.new, decide_eq_true_eq,
    decide_eq_false_iff_not]
  refine ⟨trivial, ?_, ?_⟩
  · intro h; rw [if_neg (by omega)]
  · intro h; rw [if_pos (by omega)]

example : (Selection.mk 9 4).isReversed = true ∧ (Selection.mk 9 4).range = ⟨4, 9⟩ := by decide

/-- **C16.** Extending a selection keeps its fixed end: the new range spans exactly from the old anchor to
the new position, whichever comes first. -/
theorem C16_selection_extend (s : Selection) (p : Nat) :
    (s.extendTo p).range = ⟨min s.anchor p, max s.anchor p⟩ ∧
    ((s.extendTo p).isReversed = true ↔ p < s.anchor) := by
  refine ⟨?_, decide_eq_true_iff⟩
  unfold Selection.extendTo Selection.range Range.new
  simp only
  split
  · rw [Nat.min_eq_left (by omega), Nat.max_eq_right (by omega)]
  · rw [Nat.min_eq_right (by omega), Nat.max_eq_left (by omega)]

example : ((Selection.mk 4 9).extendTo 1).range = ⟨1, 4⟩ := by decide

end Verif.Props
