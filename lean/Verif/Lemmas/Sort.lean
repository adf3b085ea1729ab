import Verif.Model.Sort
namespace Verif
variable {α : Type}

theorem insertKey_perm (key : α → Nat) (x : α) (l : List α) : (insertKey key x l).Perm (x :: l) := by
  induction l with
  | nil => exact .refl _
  | cons a l ih =>
    simp only [insertKey]
    split
    · exact (List.Perm.cons a ih).trans (List.Perm.swap x a l)
    · exact .refl _

theorem insertKey_sorted {key : α → Nat} {x : α} {l : List α}
    (h : l.Pairwise (fun a b => key a ≤ key b)) :
    (insertKey key x l).Pairwise (fun a b => key a ≤ key b) := by
  induction l with
  | nil => simp [insertKey]
  | cons a l ih =>
    rw [List.pairwise_cons] at h
    simp only [insertKey]
    split
    · next hle =>
      rw [List.pairwise_cons]
      refine ⟨?_, ih h.2⟩
      intro b hb
      rcases List.mem_cons.1 ((insertKey_perm key x l).mem_iff.1 hb) with rfl | hb
      · exact hle
      · exact h.1 b hb
    · next hle =>
      rw [List.pairwise_cons]
      refine ⟨?_, List.pairwise_cons.2 h⟩
      intro b hb
      rcases List.mem_cons.1 hb with rfl | hb
      · omega
      · have := h.1 b hb; omega

theorem sortKey_aux (key : α → Nat) (l : List α) : ∀ acc : List α,
    acc.Pairwise (fun a b => key a ≤ key b) →
    (l.foldl (fun acc x => insertKey key x acc) acc).Perm (acc ++ l) ∧
    (l.foldl (fun acc x => insertKey key x acc) acc).Pairwise (fun a b => key a ≤ key b) := by
  induction l with
  | nil => intro acc h; simp [h]
  | cons x l ih =>
    intro acc h
    have := ih (insertKey key x acc) (insertKey_sorted h)
    refine ⟨this.1.trans ?_, this.2⟩
    have h2 := (insertKey_perm key x acc).append_right l
    exact h2.trans (by simpa using List.perm_middle.symm)

theorem sortKey_perm (key : α → Nat) (l : List α) : (sortKey key l).Perm l := by
  simpa [sortKey] using (sortKey_aux key l [] List.Pairwise.nil).1

theorem sortKey_sorted (key : α → Nat) (l : List α) :
    (sortKey key l).Pairwise (fun a b => key a ≤ key b) := by
  simpa [sortKey] using (sortKey_aux key l [] List.Pairwise.nil).2

theorem mem_sortKey {key : α → Nat} {l : List α} {x : α} : x ∈ sortKey key l ↔ x ∈ l :=
  (sortKey_perm key l).mem_iff

theorem insertKey_end {key : α → Nat} {x : α} {l : List α} (h : ∀ a ∈ l, key a ≤ key x) :
    insertKey key x l = l ++ [x] := by
  induction l with
  | nil => rfl
  | cons a l ih =>
    simp only [insertKey]
    rw [if_pos (h a (by simp)), ih (fun b hb => h b (by simp [hb]))]
    rfl

theorem sortKey_of_sorted {key : α → Nat} {l : List α} (h : l.Pairwise (fun a b => key a ≤ key b)) :
    sortKey key l = l := by
  have aux : ∀ (l acc : List α), (acc ++ l).Pairwise (fun a b => key a ≤ key b) →
      l.foldl (fun acc x => insertKey key x acc) acc = acc ++ l := by
    intro l
    induction l with
    | nil => intro acc _; simp
    | cons a l ih =>
      intro acc hp
      rw [List.foldl_cons, insertKey_end, ih _ (by simpa using hp)]
      · simp
      · intro b hb
        rw [List.pairwise_append] at hp
        exact hp.2.2 b hb a (by simp)
  simpa [sortKey] using aux l [] (by simpa using h)

/-- Two strictly sorted lists with the same members are equal. -/
theorem eq_of_sorted_mem : ∀ {l l' : List Nat}, l.Pairwise (· < ·) → l'.Pairwise (· < ·) →
    (∀ x, x ∈ l ↔ x ∈ l') → l = l'
  | [], [], _, _, _ => rfl
  | [], a :: l', _, _, h => absurd ((h a).2 (by simp)) (by simp)
  | a :: l, [], _, _, h => absurd ((h a).1 (by simp)) (by simp)
  | a :: l, b :: l', h1, h2, h => by
    rw [List.pairwise_cons] at h1 h2
    have hab : a = b := by
      rcases List.mem_cons.1 ((h a).1 (by simp)) with e | e
      · exact e
      · rcases List.mem_cons.1 ((h b).2 (by simp)) with e' | e'
        · exact e'.symm
        · have := h1.1 b e'; have := h2.1 a e; omega
    subst hab
    congr 1
    apply eq_of_sorted_mem h1.2 h2.2
    intro x
    have := h x
    simp only [List.mem_cons] at this
    constructor
    · intro hx
      rcases this.1 (.inr hx) with e | e
      · subst e; exact absurd (h1.1 x hx) (Nat.lt_irrefl _)
      · exact e
    · intro hx
      rcases this.2 (.inr hx) with e | e
      · subst e; exact absurd (h2.1 x hx) (Nat.lt_irrefl _)
      · exact e

/-- A strictly sorted list of indices from a duplicate-free one. -/
theorem sortKey_id_strict {l : List Nat} (h : l.Nodup) : (sortKey id l).Pairwise (· < ·) := by
  have hs := sortKey_sorted id l
  have hn : (sortKey id l).Nodup := (sortKey_perm id l).nodup_iff.2 h
  unfold List.Nodup at hn
  refine (hs.and hn).imp ?_
  rintro a b ⟨h1, h2⟩
  exact Nat.lt_of_le_of_ne h1 h2

/-- On a list sorted by key, `partition_point(key ≤ t)` cuts off exactly the elements above `t`. -/
theorem takeWhile_sorted {key : α → Nat} {t : Nat} {l : List α}
    (h : l.Pairwise (fun a b => key a ≤ key b)) :
    l.takeWhile (fun a => key a ≤ t) = l.filter (fun a => key a ≤ t) := by
  induction l with
  | nil => rfl
  | cons a l ih =>
    rw [List.pairwise_cons] at h
    by_cases ha : key a ≤ t
    · rw [List.takeWhile_cons_of_pos (by simpa using ha), List.filter_cons_of_pos (by simpa using ha), ih h.2]
    · rw [List.takeWhile_cons_of_neg (by simpa using ha), List.filter_cons_of_neg (by simpa using ha)]
      symm
      rw [List.filter_eq_nil_iff]
      intro b hb
      have := h.1 b hb
      simp only [decide_eq_true_eq]
      omega

end Verif
