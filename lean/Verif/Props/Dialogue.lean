import Verif.Spec.Dialogue
import Verif.Props.Time
import Verif.Props.Override
/-!
# C48, C50, C70, C71, C72 — analysis of dialogue events
-/
namespace Verif.Props
open Verif Verif.Time Verif.Dialogue Verif.Spec Verif.Spec.Dialogue

/-! ## Analysed events -/

/-- What a successful analysis says. -/
theorem C50_analyze {st en text : Str} {i : Info} (h : Dialogue.analyze st en text = .ok i) :
    TimeText st i.start ∧ TimeText en i.stop ∧ Proper i ∧ i.stop < 2 ^ 32 ∧ Override.analyze text = .ok i.text := by
  unfold Dialogue.analyze at h
  cases e1 : parseAssTime st with
  | err => rw [e1] at h; cases h
  | overflow => rw [e1] at h; cases h
  | ok s =>
    cases e2 : parseAssTime en with
    | err => rw [e1, e2] at h; cases h
    | overflow => rw [e1, e2] at h; cases h
    | ok e =>
      rw [e1, e2] at h
      simp only at h
      by_cases hse : s ≥ e
      · rw [if_pos hse] at h; cases h
      · rw [if_neg hse] at h
        cases e3 : Override.analyze text with
        | err => rw [e3] at h; cases h
        | panic => rw [e3] at h; cases h
        | ok a =>
          rw [e3] at h
          simp only at h
          cases e4 : animationScore a.tags with
          | err => rw [e4] at h; cases h
          | panic => rw [e4] at h; cases h
          | ok n =>
            rw [e4] at h
            cases h
            have h1 := (C02_parse_accepts_iff _ _).1 e1
            have h2 := (C02_parse_accepts_iff _ _).1 e2
            exact ⟨h1.1, h2.1, Nat.lt_of_not_le hse, h2.2, rfl⟩

example : ∃ i, Dialogue.analyze "0:00:01.00".toList "0:00:02.50".toList "{\\b1}hi".toList = .ok i ∧ i.start = 100 ∧
    i.stop = 250 ∧ i.animation = 1 ∧ i.complexity = 10 :=
  ⟨⟨100, 250, 1, 10, ⟨"hi".toList, [⟨"b".toList, "1".toList, 1⟩], []⟩⟩, by decide, rfl, rfl, rfl, rfl⟩

/-! ## C50: timing relations -/

/-- **C50.** The relation does not depend on the order. -/
theorem C50_symmetric (a b : Info) : relation a b = relation b a := by
  unfold relation
  repeat' split
  all_goals first | rfl | (exfalso; omega)

private theorem covers_iff {a b : Info} (hb : Proper b) : Covers a b ↔ a.start ≤ b.start ∧ b.stop ≤ a.stop := by
  unfold Covers Shown
  unfold Proper at hb
  constructor
  · intro h
    have h1 := h b.start ⟨Nat.le_refl _, hb⟩
    have h2 := h (b.stop - 1) ⟨by omega, by omega⟩
    omega
  · rintro ⟨h1, h2⟩ t ⟨h3, h4⟩; omega

private theorem meet_iff {a b : Info} (ha : Proper a) (hb : Proper b) : Meet a b ↔ a.start < b.stop ∧ b.start < a.stop := by
  unfold Meet Shown
  unfold Proper at ha hb
  constructor
  · rintro ⟨t, h1, h2⟩; omega
  · intro h; exact ⟨max a.start b.start, by omega, by omega⟩

/-- **C50.** For two events that are shown at all: identical means shown at the same instants; no overlap means at no
common instant; full overlap means, otherwise, that one is shown whenever the other is; partial overlap is the rest. -/
theorem C50_relation {a b : Info} (ha : Proper a) (hb : Proper b) :
    (relation a b = .identical ↔ Covers a b ∧ Covers b a) ∧
    (relation a b = .none ↔ ¬ Meet a b) ∧
    (relation a b = .full ↔ ¬ (Covers a b ∧ Covers b a) ∧ (Covers a b ∨ Covers b a)) ∧
    (relation a b = .partly ↔ Meet a b ∧ ¬ Covers a b ∧ ¬ Covers b a) := by
  rw [covers_iff hb, covers_iff ha, meet_iff ha hb]
  unfold Proper at ha hb
  unfold relation
  by_cases h1 : a.start = b.start ∧ a.stop = b.stop
  · rw [if_pos h1]
    simp only [true_iff, reduceCtorEq, false_iff]
    omega
  · rw [if_neg h1]
    by_cases h2 : a.stop ≤ b.start ∨ b.stop ≤ a.start
    · rw [if_pos h2]
      simp only [true_iff, reduceCtorEq, false_iff]
      omega
    · rw [if_neg h2]
      by_cases h3 : (a.start ≤ b.start ∧ a.stop ≥ b.stop) ∨ (b.start ≤ a.start ∧ b.stop ≥ a.stop)
      · rw [if_pos h3]
        simp only [true_iff, reduceCtorEq, false_iff]
        omega
      · rw [if_neg h3]
        simp only [true_iff, reduceCtorEq, false_iff]
        omega

/-- An event with given times. -/
def eventAt (s e : Nat) : Info := ⟨s, e, 0, 0, ⟨[], [], []⟩⟩

example : relation (eventAt 0 10) (eventAt 10 20) = .none ∧ relation (eventAt 0 10) (eventAt 9 20) = .partly ∧
    relation (eventAt 0 10) (eventAt 5 10) = .full ∧ relation (eventAt 0 10) (eventAt 0 10) = .identical ∧
    Proper (eventAt 0 10) ∧ Meet (eventAt 0 10) (eventAt 9 20) := by
  refine ⟨by decide, by decide, by decide, by decide, ?_, 9, ?_, ?_⟩
  · show 0 < 10; decide
  · show 0 ≤ 9 ∧ 9 < 10; decide
  · show 9 ≤ 9 ∧ 9 < 20; decide

/-! ## C70: events in a range -/

private theorem findFrom_iff (l : List Info) (s e : Nat) : ∀ k n, n ∈ findFrom k s e l ↔
    ∃ j i, n = k + j ∧ l[j]? = some i ∧ overlapsRange i s e = true := by
  induction l with
  | nil => intro k n; simp [findFrom]
  | cons a l ih =>
    intro k n
    have hcons : (∃ j i, n = k + j ∧ (a :: l)[j]? = some i ∧ overlapsRange i s e = true) ↔
        (n = k ∧ overlapsRange a s e = true) ∨ ∃ j i, n = k + 1 + j ∧ l[j]? = some i ∧ overlapsRange i s e = true := by
      constructor
      · rintro ⟨j, i, h1, h2, h3⟩
        cases j with
        | zero => simp at h2; subst h2; exact .inl ⟨h1, h3⟩
        | succ j => exact .inr ⟨j, i, by omega, by simpa using h2, h3⟩
      · rintro (⟨h1, h2⟩ | ⟨j, i, h1, h2, h3⟩)
        · exact ⟨0, a, h1, rfl, h2⟩
        · exact ⟨j + 1, i, by omega, by simpa using h2, h3⟩
    rw [hcons, ← ih]
    rw [findFrom]
    cases overlapsRange a s e <;> simp

private theorem findFrom_sorted (l : List Info) (s e : Nat) : ∀ k, (findFrom k s e l).Pairwise (· < ·) ∧
    ∀ n ∈ findFrom k s e l, k ≤ n := by
  induction l with
  | nil => intro k; simp [findFrom]
  | cons a l ih =>
    intro k
    have := ih (k + 1)
    rw [findFrom]
    cases overlapsRange a s e with
    | false => exact ⟨this.1, fun n hn => by have := this.2 n hn; omega⟩
    | true =>
      refine ⟨List.pairwise_cons.2 ⟨fun n hn => by have := this.2 n hn; omega, this.1⟩, ?_⟩
      intro n hn
      rcases List.mem_cons.1 hn with rfl | hn
      · exact Nat.le_refl _
      · have := this.2 n hn; omega

/-- **C70, partial.** For a range that is not empty, the events found are exactly those shown at some instant of it,
in order, each once.  Missing: empty ranges, see below. -/
theorem C70_find_partial {l : List Info} (hl : ∀ i ∈ l, Proper i) {s e : Nat} (hr : s < e) :
    (∀ n, n ∈ findInRange l s e ↔ ∃ i, l[n]? = some i ∧ ∃ t, s ≤ t ∧ t < e ∧ Shown i t) ∧
    (findInRange l s e).Pairwise (· < ·) := by
  refine ⟨fun n => ?_, (findFrom_sorted l s e 0).1⟩
  unfold findInRange
  rw [findFrom_iff]
  have key : ∀ i, Proper i → (overlapsRange i s e = true ↔ ∃ t, s ≤ t ∧ t < e ∧ Shown i t) := by
    intro i hi
    unfold Proper at hi
    unfold overlapsRange Shown
    simp only [Bool.not_eq_true', Bool.or_eq_false_iff, decide_eq_false_iff_not]
    constructor
    · intro h; exact ⟨max s i.start, by omega, by omega, by omega⟩
    · rintro ⟨t, h⟩; omega
  constructor
  · rintro ⟨j, i, h1, h2, h3⟩
    have : n = j := by omega
    subst this
    exact ⟨i, h2, (key i (hl i (List.mem_of_getElem? h2))).1 h3⟩
  · rintro ⟨i, h1, h2⟩
    exact ⟨n, i, by omega, h1, (key i (hl i (List.mem_of_getElem? h1))).2 h2⟩

example : findInRange [eventAt 0 10, eventAt 10 20, eventAt 15 30] 10 15 = [1] := by decide

/-- **C70 does not hold for empty ranges:** a range without any instant, even one whose end lies before its start, finds
the events around it. -/
theorem C70_empty_violated :
    findInRange [eventAt 0 100] 50 50 = [0] ∧ findInRange [eventAt 0 100] 60 40 = [0] ∧
    (∀ t, ¬ (50 ≤ t ∧ t < 50)) ∧ (∀ t, ¬ (60 ≤ t ∧ t < 40)) :=
  ⟨by decide, by decide, fun t => by omega, fun t => by omega⟩

/-! ## C48: scores -/

private theorem weight_range (n : Str) : 1 ≤ weight n ∧ weight n ≤ 8 := by
  unfold weight
  repeat' split
  all_goals omega

/-- **C48.** The animation score is at most 10. -/
theorem C48_animation_max {tags : List Override.Tag} {n : Nat} (h : animationScore tags = .ok n) : n ≤ 10 := by
  unfold animationScore at h
  by_cases hs : (tags.map (fun t => weight t.name)).sum < 256
  · simp only [hs, if_true, Outcome.ok.injEq] at h; omega
  · simp only [hs, if_false] at h; cases h

private theorem sum_sublist {l k : List Nat} (h : l.Sublist k) : l.sum ≤ k.sum := by
  induction h with
  | slnil => exact Nat.le_refl _
  | cons a h ih => simp; omega
  | cons_cons a h ih => simp; omega

/-- **C48.** More tags never lower the animation score, and a score of 0 means there are none. -/
theorem C48_animation_monotone {l k : List Override.Tag} (h : l.Sublist k) {n m : Nat} (hl : animationScore l = .ok n)
    (hk : animationScore k = .ok m) : n ≤ m ∧ (n = 0 ↔ l = []) := by
  unfold animationScore at hl hk
  have hs := sum_sublist (h.map (fun t => weight t.name))
  by_cases h2 : (k.map (fun t => weight t.name)).sum < 256
  · have h1 : (l.map (fun t => weight t.name)).sum < 256 := by omega
    simp only [h1, if_true, Outcome.ok.injEq] at hl
    simp only [h2, if_true, Outcome.ok.injEq] at hk
    refine ⟨by omega, ?_⟩
    cases l with
    | nil => simp at hl; simp [← hl]
    | cons t l =>
      simp only [List.map_cons, List.sum_cons] at hl
      have := (weight_range t.name).1
      simp; omega
  · simp only [h2, if_false] at hk; cases hk

private theorem sum_le (l : List Nat) (h : ∀ x ∈ l, x ≤ 8) : l.sum ≤ 8 * l.length := by
  induction l with
  | nil => simp
  | cons a l ih =>
    have := h a (by simp)
    have := ih (fun x hx => h x (by simp [hx]))
    simp; omega

/-- **C48, partial.** With at most 31 tags the animation score is computed.  Missing: longer lists, see below. -/
theorem C48_animation_total_partial {tags : List Override.Tag} (h : tags.length ≤ 31) :
    ∃ n, animationScore tags = .ok n := by
  unfold animationScore
  have := sum_le (tags.map (fun t => weight t.name)) (by
    intro x hx
    obtain ⟨t, _, rfl⟩ := List.mem_map.1 hx
    exact (weight_range _).2)
  rw [List.length_map] at this
  exact ⟨_, if_pos (by omega)⟩

example : animationScore (List.replicate 31 ⟨"p".toList, "1".toList, 0⟩) = .ok 10 ∧
    animationScore [⟨"move".toList, [], 0⟩, ⟨"b".toList, [], 0⟩] = .ok 5 := by decide

/-- **C48 does not hold for every event:** the sum is kept in eight bits, so 52 animation tags (or 256 simple ones) make
the analysis panic, although the score would only be 10. -/
theorem C48_animation_violated :
    animationScore (List.replicate 52 ⟨"t".toList, [], 0⟩) = .panic ∧
    animationScore (List.replicate 256 ⟨"b".toList, "1".toList, 0⟩) = .panic := by
  constructor
  · unfold animationScore
    rw [List.map_replicate, List.sum_replicate_nat]
    exact if_neg (by decide)
  · unfold animationScore
    rw [List.map_replicate, List.sum_replicate_nat]
    exact if_neg (by decide)

/-- **C48.** The complexity score is at most 100, and it never falls when the animation score, the number of characters
or the number of tags rises; nor does the performance impact. -/
theorem C48_complexity (a c o a' c' o' : Nat) (ha : a ≤ a') (hc : c ≤ c') (ho : o ≤ o') :
    complexityScore a c o ≤ 100 ∧ complexityScore a c o ≤ complexityScore a' c' o' ∧
    impact (complexityScore a c o) ≤ impact (complexityScore a' c' o') := by
  have h1 : complexityScore a c o ≤ 100 := Nat.min_le_right _ _
  have h2 : complexityScore a c o ≤ complexityScore a' c' o' := by
    unfold complexityScore
    simp only
    have hcc : (if c ≤ 50 then 0 else if c ≤ 200 then 5 else if c ≤ 500 then 15 else if c ≤ 1000 then 30 else 50) ≤
        (if c' ≤ 50 then 0 else if c' ≤ 200 then 5 else if c' ≤ 500 then 15 else if c' ≤ 1000 then 30 else 50) := by
      repeat' split
      all_goals omega
    have hoo : (if o = 0 then 0 else if o ≤ 5 then 5 else if o ≤ 15 then 15 else if o ≤ 30 then 25 else 35) ≤
        (if o' = 0 then 0 else if o' ≤ 5 then 5 else if o' ≤ 15 then 15 else if o' ≤ 30 then 25 else 35) := by
      repeat' split
      all_goals omega
    omega
  refine ⟨h1, h2, ?_⟩
  generalize complexityScore a c o = x at *
  generalize complexityScore a' c' o' = y at *
  unfold impact
  repeat' split
  all_goals omega

/-- **C48.** The scores of an analysed event are in range. -/
theorem C48_analyze {st en text : Str} {i : Info} (h : Dialogue.analyze st en text = .ok i) :
    i.animation ≤ 10 ∧ i.complexity ≤ 100 ∧ (i.text.tags = [] → i.animation = 0) := by
  unfold Dialogue.analyze at h
  cases e1 : parseAssTime st with
  | err => rw [e1] at h; cases h
  | overflow => rw [e1] at h; cases h
  | ok s =>
    cases e2 : parseAssTime en with
    | err => rw [e1, e2] at h; cases h
    | overflow => rw [e1, e2] at h; cases h
    | ok e =>
      rw [e1, e2] at h
      simp only at h
      by_cases hse : s ≥ e
      · rw [if_pos hse] at h; cases h
      · rw [if_neg hse] at h
        cases e3 : Override.analyze text with
        | err => rw [e3] at h; cases h
        | panic => rw [e3] at h; cases h
        | ok a =>
          rw [e3] at h
          simp only at h
          cases e4 : animationScore a.tags with
          | err => rw [e4] at h; cases h
          | panic => rw [e4] at h; cases h
          | ok n =>
            rw [e4] at h
            cases h
            refine ⟨C48_animation_max e4, Nat.min_le_right _ _, ?_⟩
            intro ht
            have ht' : a.tags = [] := ht
            rw [ht'] at e4
            cases e4; rfl

example : complexityScore 10 2000 50 = 100 ∧ complexityScore 2 60 3 = 20 ∧ impact 20 = 0 ∧ impact 21 = 1 := by decide

/-! ## C71: durations -/

private theorem foldl_min (t : List Info) : ∀ m, (t.foldl (fun m j => min m j.start) m ≤ m ∧
    ∀ j ∈ t, t.foldl (fun m j => min m j.start) m ≤ j.start) ∧
    (t.foldl (fun m j => min m j.start) m = m ∨ ∃ j ∈ t, t.foldl (fun m j => min m j.start) m = j.start) := by
  induction t with
  | nil => intro m; simp
  | cons a t ih =>
    intro m
    obtain ⟨⟨h1, h2⟩, h3⟩ := ih (min m a.start)
    simp only [List.foldl_cons]
    refine ⟨⟨by omega, ?_⟩, ?_⟩
    · intro j hj
      rcases List.mem_cons.1 hj with rfl | hj
      · omega
      · exact h2 j hj
    · rcases h3 with h3 | ⟨j, hj, h3⟩
      · by_cases hm : m ≤ a.start
        · left; omega
        · right; exact ⟨a, by simp, by omega⟩
      · right; exact ⟨j, by simp [hj], h3⟩

private theorem foldl_max (t : List Info) : ∀ m, (m ≤ t.foldl (fun m j => max m j.stop) m ∧
    ∀ j ∈ t, j.stop ≤ t.foldl (fun m j => max m j.stop) m) ∧
    (t.foldl (fun m j => max m j.stop) m = m ∨ ∃ j ∈ t, t.foldl (fun m j => max m j.stop) m = j.stop) := by
  induction t with
  | nil => intro m; simp
  | cons a t ih =>
    intro m
    obtain ⟨⟨h1, h2⟩, h3⟩ := ih (max m a.stop)
    simp only [List.foldl_cons]
    refine ⟨⟨by omega, ?_⟩, ?_⟩
    · intro j hj
      rcases List.mem_cons.1 hj with rfl | hj
      · omega
      · exact h2 j hj
    · rcases h3 with h3 | ⟨j, hj, h3⟩
      · by_cases hm : a.stop ≤ m
        · left; omega
        · right; exact ⟨a, by simp, by omega⟩
      · right; exact ⟨j, by simp [hj], h3⟩

/-- **C71.** The total duration is the length of the shortest span of time that contains all events; it never panics
for events that are shown. -/
theorem C71_total {l : List Info} (hl : ∀ i ∈ l, Proper i) (hne : l ≠ []) :
    ∃ s e, totalDuration l = .ok (some (e - s)) ∧ s < e ∧ (∀ i ∈ l, ∀ t, Shown i t → s ≤ t ∧ t < e) ∧
      (∃ i ∈ l, Shown i s) ∧ (∃ i ∈ l, Shown i (e - 1)) := by
  cases l with
  | nil => exact absurd rfl hne
  | cons a t =>
    obtain ⟨⟨h1, h2⟩, h3⟩ := foldl_min t a.start
    obtain ⟨⟨h4, h5⟩, h6⟩ := foldl_max t a.stop
    have ha : a.start < a.stop := hl a (by simp)
    refine ⟨t.foldl (fun m j => min m j.start) a.start, t.foldl (fun m j => max m j.stop) a.stop, ?_, by omega, ?_, ?_, ?_⟩
    · unfold totalDuration
      simp only
      rw [if_neg (by omega)]
    · rintro i hi u ⟨hu1, hu2⟩
      rcases List.mem_cons.1 hi with rfl | hi
      · exact ⟨by omega, by omega⟩
      · have := h2 i hi; have := h5 i hi
        exact ⟨by omega, by omega⟩
    · rcases h3 with h3 | ⟨j, hj, h3⟩
      · exact ⟨a, by simp, by omega, by omega⟩
      · have : j.start < j.stop := hl j (by simp [hj])
        exact ⟨j, by simp [hj], by omega, by omega⟩
    · rcases h6 with h6 | ⟨j, hj, h6⟩
      · exact ⟨a, by simp, by omega, by omega⟩
      · have : j.start < j.stop := hl j (by simp [hj])
        exact ⟨j, by simp [hj], by omega, by omega⟩

example : totalDuration [eventAt 50 60, eventAt 10 20, eventAt 15 30] = .ok (some 50) ∧ totalDuration [] = .ok none := by
  decide

private theorem sumDurations_eq (l : List Info) (hl : ∀ i ∈ l, Proper i) : ∀ acc,
    acc < 2 ^ 32 → sumDurations acc l = if acc + (l.map (fun i => i.stop - i.start)).sum < 2 ^ 32
      then .ok (acc + (l.map (fun i => i.stop - i.start)).sum) else .panic := by
  induction l with
  | nil => intro acc h; simp [sumDurations]; exact h
  | cons a l ih =>
    intro acc h
    have ha : a.start < a.stop := hl a (by simp)
    simp only [sumDurations, durationCs, List.map_cons, List.sum_cons]
    rw [if_neg (show ¬ a.stop < a.start by omega)]
    simp only
    by_cases h1 : acc + (a.stop - a.start) < 2 ^ 32
    · rw [if_pos h1, ih (fun i hi => hl i (by simp [hi])) _ h1, Nat.add_assoc]
    · rw [if_neg h1, if_neg (by omega)]

/-- **C71, partial.** The average duration is the sum of the durations divided by their number, if the sum fits 32 bits.
Missing: larger sums, see below. -/
theorem C71_average_partial {l : List Info} (hl : ∀ i ∈ l, Proper i) (hne : l ≠ [])
    (hs : (l.map (fun i => i.stop - i.start)).sum < 2 ^ 32) (hn : l.length < 2 ^ 32) :
    averageDuration l = .ok (some ((l.map (fun i => i.stop - i.start)).sum / l.length)) := by
  cases l with
  | nil => exact absurd rfl hne
  | cons a t =>
    unfold averageDuration
    simp only
    rw [sumDurations_eq _ hl 0 (by decide), Nat.zero_add, if_pos hs, if_pos hn]

example : averageDuration [eventAt 50 60, eventAt 10 30] = .ok (some 15) := by decide

/-- **C71, partial.** The duration of an event in milliseconds is ten times that in centiseconds, if it is less than
2³² ms (about 1193 hours).  Missing: longer events, see below. -/
theorem C71_duration_partial {i : Info} (h : Proper i) :
    durationCs i = .ok (i.stop - i.start) ∧
    ((i.stop - i.start) * 10 < 2 ^ 32 → durationMs i = .ok ((i.stop - i.start) * 10)) := by
  unfold Proper at h
  unfold durationCs durationMs
  rw [if_neg (by omega)]
  refine ⟨rfl, fun h2 => ?_⟩
  rw [if_neg (by omega), if_pos h2]

example : durationMs (eventAt 100 250) = .ok 1500 := by decide

/-- **C71 does not hold for every event:** an event of 1200 hours is accepted, but asking for its milliseconds panics;
so does the average of two events of 10000 hours. -/
theorem C71_overflow_violated :
    (∃ i, Dialogue.analyze "0:00:00.00".toList "1200:00:00.00".toList "a".toList = .ok i ∧ durationMs i = .panic) ∧
    (∃ i, Dialogue.analyze "0:00:00.00".toList "10000:00:00.00".toList "a".toList = .ok i ∧
      averageDuration [i, i] = .panic) := by
  refine ⟨⟨⟨0, 432000000, 0, 0, ⟨"a".toList, [], []⟩⟩, by decide, by decide⟩,
    ⟨⟨0, 3600000000, 0, 0, ⟨"a".toList, [], []⟩⟩, by decide, by decide⟩⟩

/-! ## C72: sorting -/

private theorem notAfter_iff (a b : Info) : notAfter a b = true ↔ InOrder a b := by
  unfold notAfter InOrder
  by_cases h : a.start = b.start
  · rw [if_pos h, decide_eq_true_eq]; omega
  · rw [if_neg h, decide_eq_true_eq]; omega

private theorem order_trans {a b c : Info} (h1 : InOrder a b) (h2 : InOrder b c) : InOrder a c := by
  unfold InOrder at *; omega

private theorem order_total {a b : Info} (h : ¬ InOrder a b) : InOrder b a := by
  unfold InOrder at *; omega

private theorem insert_perm (x : Info) (l : List Info) : (insertTime x l).Perm (x :: l) := by
  induction l with
  | nil => exact .refl _
  | cons a l ih =>
    simp only [insertTime]
    split
    · exact (List.Perm.cons a ih).trans (List.Perm.swap x a l)
    · exact .refl _

private theorem insert_sorted {x : Info} {l : List Info} (h : l.Pairwise InOrder) : (insertTime x l).Pairwise InOrder := by
  induction l with
  | nil => simp [insertTime]
  | cons a l ih =>
    rw [List.pairwise_cons] at h
    simp only [insertTime]
    by_cases hx : notAfter a x = true
    · rw [if_pos hx, List.pairwise_cons]
      refine ⟨fun b hb => ?_, ih h.2⟩
      rcases List.mem_cons.1 ((insert_perm x l).mem_iff.1 hb) with rfl | hb
      · exact (notAfter_iff _ _).1 hx
      · exact h.1 b hb
    · rw [if_neg hx, List.pairwise_cons]
      have hxa := order_total (fun h' => hx ((notAfter_iff _ _).2 h'))
      refine ⟨fun b hb => ?_, List.pairwise_cons.2 h⟩
      rcases List.mem_cons.1 hb with rfl | hb
      · exact hxa
      · exact order_trans hxa (h.1 b hb)

private theorem insert_stable {x : Info} {l : List Info} (hl : l.Pairwise InOrder) (s e : Nat) :
    (insertTime x l).filter (fun i => i.start == s && i.stop == e) =
      l.filter (fun i => i.start == s && i.stop == e) ++ [x].filter (fun i => i.start == s && i.stop == e) := by
  induction l with
  | nil => rfl
  | cons a l ih =>
    rw [List.pairwise_cons] at hl
    simp only [insertTime]
    by_cases hx : notAfter a x = true
    · rw [if_pos hx, List.filter_cons, List.filter_cons, ih hl.2]
      split <;> rfl
    · rw [if_neg hx]
      by_cases hxs : (x.start == s && x.stop == e) = true
      · have hnone : (a :: l).filter (fun i => i.start == s && i.stop == e) = [] := by
          rw [List.filter_eq_nil_iff]
          intro b hb hbs
          simp only [Bool.and_eq_true, beq_iff_eq] at hbs hxs
          have hax : InOrder a b := by
            rcases List.mem_cons.1 hb with rfl | hb
            · exact .inr ⟨rfl, Nat.le_refl _⟩
            · exact hl.1 b hb
          apply hx
          rw [notAfter_iff]
          unfold InOrder at *
          omega
        rw [List.filter_cons_of_pos (by exact hxs), hnone, List.filter_cons_of_pos (by exact hxs)]
        rfl
      · have hn : [x].filter (fun i => i.start == s && i.stop == e) = [] := by
          rw [List.filter_cons_of_neg (by exact hxs)]; rfl
        rw [List.filter_cons_of_neg (by exact hxs), hn, List.append_nil]

/-- **C72.** Sorting rearranges the events in order of start and then end, and events with the same times keep their
order. -/
theorem C72_sort (l : List Info) :
    (sortByTime l).Perm l ∧ (sortByTime l).Pairwise InOrder ∧
    ∀ s e, (sortByTime l).filter (fun i => i.start == s && i.stop == e) = l.filter (fun i => i.start == s && i.stop == e) := by
  have key : ∀ acc : List Info, acc.Pairwise InOrder →
      (l.foldl (fun acc x => insertTime x acc) acc).Perm (acc ++ l) ∧
      (l.foldl (fun acc x => insertTime x acc) acc).Pairwise InOrder ∧
      ∀ s e, (l.foldl (fun acc x => insertTime x acc) acc).filter (fun i => i.start == s && i.stop == e) =
        (acc ++ l).filter (fun i => i.start == s && i.stop == e) := by
    induction l with
    | nil => intro acc h; simp [h]
    | cons x l ih =>
      intro acc h
      obtain ⟨h1, h2, h3⟩ := ih (insertTime x acc) (insert_sorted h)
      refine ⟨h1.trans ?_, h2, fun s e => ?_⟩
      · exact ((insert_perm x acc).append_right l).trans (by simpa using List.perm_middle.symm)
      · simp only [List.foldl_cons]
        rw [h3, List.filter_append, insert_stable h, List.append_assoc, ← List.filter_append, ← List.filter_append]
        rfl
  exact key [] List.Pairwise.nil

example : sortByTime [eventAt 5 9, eventAt 1 8, ⟨5, 7, 1, 1, ⟨[], [], []⟩⟩, eventAt 5 7] =
    [eventAt 1 8, ⟨5, 7, 1, 1, ⟨[], [], []⟩⟩, eventAt 5 7, eventAt 5 9] := by decide

end Verif.Props
