import Verif.Lemmas.Overlap
/-!
# C22 — overlap detection
-/
namespace Verif.Props
open Verif Verif.Overlap Verif.Spec.Ov

/-- **C22, partial.** For events that all have positive duration, the reported pairs are exactly the
pairs of distinct events whose intervals share an instant, each reported once and in one order.
Missing: events whose end is not after their start (see `C22_exact_violated`). -/
theorem C22_exact_partial (iv : List (Nat × Nat)) (hpos : ∀ p ∈ iv, p.1 < p.2) :
    ∃ r, findOverlaps (iv.map some) = some r ∧ r.Nodup ∧
      (∀ i j, (i, j) ∈ r → (j, i) ∉ r) ∧
      ∀ i j, ((i, j) ∈ r ∨ (j, i) ∈ r) ↔
        i ≠ j ∧ ∃ a b, iv[i]? = some a ∧ iv[j]? = some b ∧ Meet a b := by
  unfold findOverlaps
  rw [List.length_map]
  by_cases hl : iv.length < 2
  · rw [if_pos hl]
    refine ⟨[], rfl, by simp, by simp, ?_⟩
    intro i j
    simp only [List.not_mem_nil, or_self, false_iff, not_and, not_exists]
    intro hne a b ha hb
    have := (List.getElem?_eq_some_iff.1 ha).1
    have := (List.getElem?_eq_some_iff.1 hb).1
    omega
  · rw [if_neg hl, sweeps_some 0 iv rfl]
    simp only [Option.map_some, Option.some.injEq, exists_eq_left']
    generalize hW : (iv.zipIdx 0).flatMap (fun p => [Sweep.start p.1.1 p.2, Sweep.fin p.1.2 p.2]) = W
    have hWn : W.Nodup := hW ▸ nodup_flat iv 0
    have hWm : ∀ x, x ∈ W ↔ ∃ i p, iv[i]? = some p ∧ (x = .start p.1 i ∨ x = .fin p.2 i) := by
      intro x; rw [← hW, mem_flat]; simp
    let S : Nat → Sweep := fun i => .start ((iv[i]?.getD (0, 1)).1) i
    let E : Nat → Sweep := fun i => .fin ((iv[i]?.getD (0, 1)).2) i
    let L := sortKey Sweep.key W
    have hLm : ∀ x, x ∈ L ↔ x ∈ W := fun x => mem_sortKey
    have hLn : L.Nodup := (sortKey_perm _ W).nodup_iff.2 hWn
    have hLs := sortKey_sorted Sweep.key W
    have hle : ∀ {x y}, [x, y].Sublist L → x.key ≤ y.key :=
      fun h => (List.pairwise_iff_forall_sublist.1 hLs) h
    have hposi : ∀ i : Nat, (iv[i]?.getD (0, 1)).1 < (iv[i]?.getD (0, 1)).2 := by
      intro i
      cases hi : iv[i]? with
      | none => simp
      | some p => exact hpos p (List.mem_of_getElem? hi)
    have hSm : ∀ i, S i ∈ L ↔ ∃ p, iv[i]? = some p := by
      intro i
      rw [hLm, hWm]
      constructor
      · rintro ⟨k, p, hp, h | h⟩
        · injection h with h1 h2; subst h2; exact ⟨p, hp⟩
        · cases h
      · rintro ⟨p, hp⟩; exact ⟨i, p, hp, .inl (by simp [S, hp])⟩
    have hEm : ∀ i, E i ∈ L ↔ ∃ p, iv[i]? = some p := by
      intro i
      rw [hLm, hWm]
      constructor
      · rintro ⟨k, p, hp, h | h⟩
        · cases h
        · injection h with h1 h2; subst h2; exact ⟨p, hp⟩
      · rintro ⟨p, hp⟩; exact ⟨i, p, hp, .inr (by simp [E, hp])⟩
    obtain ⟨-, -, h3, h4⟩ := sweep_inv S E (fun i => ⟨_, rfl⟩) (fun i => ⟨_, rfl⟩) L
      (by
        intro x hx
        rw [hLm, hWm] at hx
        obtain ⟨i, p, hp, h | h⟩ := hx
        · exact ⟨i, .inl (by simp [S, hp, h])⟩
        · exact ⟨i, .inr (by simp [E, hp, h])⟩)
      hLn
      (by
        intro i h
        have := hle h
        simp only [S, E, Sweep.key] at this
        have := hposi i
        omega)
    have hnot : ∀ i j, (i, j) ∈ (L.foldl step ([], [])).2 → (j, i) ∉ (L.foldl step ([], [])).2 := by
      intro i j h h'
      exact pair_antisymm hLn ((h4 i j).1 h).1 ((h4 j i).1 h').1
    -- the meaning of one reported pair
    have one : ∀ i j : Nat, [S i, S j].Sublist L → (¬ [E i, S j].Sublist L ↔
        Meet (iv[i]?.getD (0, 1)) (iv[j]?.getD (0, 1))) := by
      intro i j hij
      have hmi := (hSm i).1 (pair_sublist_mem hij).1
      have hmj := (hSm j).1 (pair_sublist_mem hij).2
      have hk := hle hij
      simp only [S, Sweep.key] at hk
      have hpi := hposi i
      have hpj := hposi j
      rw [meet_iff]
      constructor
      · intro h
        rcases pair_total ((hEm i).2 hmi) ((hSm j).2 hmj) (by simp [S, E]) with h' | h'
        · exact absurd h' h
        · have := hle h'
          simp only [S, E, Sweep.key] at this
          omega
      · intro h h'
        have := hle h'
        simp only [S, E, Sweep.key] at this
        omega
    have dist : ∀ i j, [S i, S j].Sublist L → i ≠ j := by
      rintro i j h rfl
      have := hLn.sublist h
      simp at this
    refine ⟨h3, hnot, ?_⟩
    intro i j
    show ((i, j) ∈ (L.foldl step ([], [])).2 ∨ (j, i) ∈ (L.foldl step ([], [])).2) ↔ _
    rw [h4, h4]
    constructor
    · rintro (⟨h1, h2⟩ | ⟨h1, h2⟩)
      · obtain ⟨p, hp⟩ := (hSm i).1 (pair_sublist_mem h1).1
        obtain ⟨q, hq⟩ := (hSm j).1 (pair_sublist_mem h1).2
        have := (one i j h1).1 h2
        rw [hp, hq] at this
        exact ⟨dist i j h1, p, q, hp, hq, this⟩
      · obtain ⟨p, hp⟩ := (hSm j).1 (pair_sublist_mem h1).1
        obtain ⟨q, hq⟩ := (hSm i).1 (pair_sublist_mem h1).2
        have := (one j i h1).1 h2
        rw [hp, hq] at this
        obtain ⟨t, ha, hb⟩ := this
        exact ⟨(dist j i h1).symm, q, p, hq, hp, t, hb, ha⟩
    · rintro ⟨hne, p, q, hp, hq, hm⟩
      rcases pair_total ((hSm i).2 ⟨p, hp⟩) ((hSm j).2 ⟨q, hq⟩)
        (by intro h; simp only [S] at h; injection h with _ h; exact hne h) with h | h
      · left
        refine ⟨h, (one i j h).2 ?_⟩
        rw [hp, hq]; exact hm
      · right
        refine ⟨h, (one j i h).2 ?_⟩
        rw [hp, hq]
        obtain ⟨t, ha, hb⟩ := hm
        exact ⟨t, hb, ha⟩

/-- **C22.** With at least two events, a time that does not parse makes the call fail. -/
theorem C22_bad_time (times : List (Option (Nat × Nat))) (h : none ∈ times) (hl : 2 ≤ times.length) :
    findOverlaps times = none := by
  unfold findOverlaps
  rw [if_neg (by omega), sweeps_none h]
  rfl

example : findOverlaps [some (100, 200), some (0, 100), some (150, 300), some (199, 200)] =
    some [(0, 2), (0, 3), (2, 3)] := by decide

/-- **C22, disagreement.** An event of zero duration is reported as overlapping with every later
event, however far away. -/
theorem C22_exact_violated :
    ¬ ∀ (iv : List (Nat × Nat)) (r : List (Nat × Nat)), findOverlaps (iv.map some) = some r →
        ∀ i j, (i, j) ∈ r → ∃ a b, iv[i]? = some a ∧ iv[j]? = some b ∧ Meet a b := by
  intro h
  obtain ⟨a, b, ha, hb, t, h1, h2⟩ := h [(100, 100), (500, 600)] [(0, 1)] (by decide) 0 1 (by simp)
  simp only [List.getElem?_cons_zero, Option.some.injEq] at ha
  subst ha
  simp only at h1
  omega

end Verif.Props
