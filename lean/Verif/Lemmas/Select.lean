import Verif.Spec.Select
import Verif.Lemmas.Sort
namespace Verif.Select
open Verif Verif.Spec.Sel

theorem entries_mem {comments : Bool} {s f j : Nat} : ∀ (evs : List Ev) (i : Nat),
    (s, f, j) ∈ entries comments i evs ↔ ∃ k e, evs[k]? = some e ∧ j = i + k ∧
      (e.kind = .dialogue ∨ (e.kind = .comment ∧ comments = true)) ∧ s = e.start.getD 0 ∧ f = e.fin.getD 0 := by
  intro evs
  induction evs with
  | nil => intro i; simp [entries]
  | cons e l ih =>
    intro i
    have hk : keep comments e = true ↔ (e.kind = .dialogue ∨ (e.kind = .comment ∧ comments = true)) := by
      unfold keep; cases e.kind <;> simp
    have shift : (∃ k e', l[k]? = some e' ∧ j = i + 1 + k ∧
        (e'.kind = .dialogue ∨ (e'.kind = .comment ∧ comments = true)) ∧ s = e'.start.getD 0 ∧ f = e'.fin.getD 0) ↔
        (∃ k e', (e :: l)[k + 1]? = some e' ∧ j = i + (k + 1) ∧
        (e'.kind = .dialogue ∨ (e'.kind = .comment ∧ comments = true)) ∧ s = e'.start.getD 0 ∧ f = e'.fin.getD 0) := by
      simp only [List.getElem?_cons_succ]
      constructor <;> (rintro ⟨k, e', h1, h2, h3⟩; exact ⟨k, e', h1, by omega, h3⟩)
    simp only [entries]
    split
    · next h =>
      rw [List.mem_cons, ih, shift]
      constructor
      · rintro (h' | ⟨k, e', h'⟩)
        · simp only [Prod.mk.injEq] at h'
          exact ⟨0, e, rfl, by omega, hk.1 h, h'.1, h'.2.1⟩
        · exact ⟨k + 1, e', h'⟩
      · rintro ⟨k, e', h1, h2, h3, h4, h5⟩
        cases k with
        | zero =>
          simp only [List.getElem?_cons_zero, Option.some.injEq] at h1
          subst h1
          left
          simp [h4, h5, h2]
        | succ k => exact .inr ⟨k, e', h1, h2, h3, h4, h5⟩
    · next h =>
      rw [ih, shift]
      constructor
      · rintro ⟨k, e', h'⟩; exact ⟨k + 1, e', h'⟩
      · rintro ⟨k, e', h1, h2, h3, h4⟩
        cases k with
        | zero =>
          simp only [List.getElem?_cons_zero, Option.some.injEq] at h1
          subst h1
          exact absurd (hk.2 h3) h
        | succ k => exact ⟨k, e', h1, h2, h3, h4⟩

theorem entries_nodup (comments : Bool) : ∀ (evs : List Ev) (i : Nat),
    ((entries comments i evs).map (·.2.2)).Pairwise (· < ·) ∧
    ∀ j ∈ (entries comments i evs).map (·.2.2), i ≤ j := by
  intro evs
  induction evs with
  | nil => intro i; simp [entries]
  | cons e l ih =>
    intro i
    have := ih (i + 1)
    simp only [entries]
    split
    · simp only [List.map_cons, List.pairwise_cons]
      refine ⟨⟨fun j hj => ?_, this.1⟩, ?_⟩
      · have := this.2 j hj; omega
      · intro j hj
        rcases List.mem_cons.1 hj with h | h
        · omega
        · have := this.2 j h; omega
    · exact ⟨this.1, fun j hj => by have := this.2 j hj; omega⟩

theorem query_build (addr : Nat) (evs : List Ev) (comments : Bool) (t : Nat) :
    (query (build addr evs comments) t).Pairwise (· < ·) ∧
    ∀ j, j ∈ query (build addr evs comments) t ↔ ∃ e, evs[j]? = some e ∧ Shown comments t e := by
  have hs := sortKey_sorted (fun p : Nat × Nat × Nat => p.1) (entries comments 0 evs)
  have hp := sortKey_perm (fun p : Nat × Nat × Nat => p.1) (entries comments 0 evs)
  unfold query build
  simp only
  rw [takeWhile_sorted hs]
  constructor
  · apply sortKey_id_strict
    have hn : ((sortKey (fun p : Nat × Nat × Nat => p.1) (entries comments 0 evs)).map (·.2.2)).Nodup := by
      rw [(hp.map _).nodup_iff]
      exact (entries_nodup comments evs 0).1.imp (fun h => Nat.ne_of_lt h)
    exact hn.sublist ((List.filter_sublist.trans List.filter_sublist).map _)
  · intro j
    rw [mem_sortKey]
    simp only [List.mem_map, List.mem_filter, decide_eq_true_eq, hp.mem_iff]
    constructor
    · rintro ⟨⟨s, f, j'⟩, ⟨⟨hm, h1⟩, h2⟩, rfl⟩
      obtain ⟨k, e, hk, hj, hkind, hs, hf⟩ := (entries_mem evs 0).1 hm
      simp only at h1 h2 hj ⊢
      refine ⟨e, by rw [hj]; simpa using hk, hkind, by omega, by omega⟩
    · rintro ⟨e, he, hkind, h1, h2⟩
      refine ⟨(e.start.getD 0, e.fin.getD 0, j), ⟨⟨?_, h1⟩, h2⟩, rfl⟩
      exact (entries_mem evs 0).2 ⟨j, e, he, by omega, hkind, rfl, rfl⟩

theorem pick_some {evs : List Ev} : ∀ {l : List Nat}, (∀ j ∈ l, j < evs.length) →
    pick evs l = some (l.filterMap (fun j => evs[j]?)) := by
  intro l
  induction l with
  | nil => intro _; rfl
  | cons i l ih =>
    intro h
    have hi : i < evs.length := h i (by simp)
    simp only [pick, List.getElem?_eq_getElem hi, ih (fun j hj => h j (by simp [hj])), List.filterMap_cons]

theorem filterMap_congr' {α β : Type} {f g : α → Option β} : ∀ {l : List α}, (∀ x ∈ l, f x = g x) →
    l.filterMap f = l.filterMap g := by
  intro l
  induction l with
  | nil => intro _; rfl
  | cons a l ih =>
    intro h
    simp only [List.filterMap_cons, h a (by simp), ih (fun x hx => h x (by simp [hx]))]

/-- The indices of a list whose element satisfies a predicate, picked in order, give the filter. -/
theorem filterMap_indices {evs : List Ev} {q : Ev → Bool} : ∀ {l : List Nat}, l.Pairwise (· < ·) →
    (∀ j, j ∈ l ↔ ∃ e, evs[j]? = some e ∧ q e = true) →
    l.filterMap (fun j => evs[j]?) = evs.filter q := by
  induction evs with
  | nil => intro l _ h; simp
  | cons a evs ih =>
    intro l hp h
    -- drop a possible leading 0 and shift down
    have tail : ∀ l : List Nat, l.Pairwise (· < ·) → (∀ j ∈ l, 0 < j) →
        (∀ j, j ∈ l ↔ 0 < j ∧ ∃ e, (a :: evs)[j]? = some e ∧ q e = true) →
        l.filterMap (fun j => (a :: evs)[j]?) = evs.filter q := by
      intro l hp hpos hl
      rw [← ih (l := l.map (· - 1)) ?_ ?_]
      · rw [List.filterMap_map]
        apply filterMap_congr'
        intro j hj
        have := hpos j hj
        obtain ⟨k, rfl⟩ : ∃ k, j = k + 1 := ⟨j - 1, by omega⟩
        simp
      · rw [List.pairwise_map]
        refine (List.pairwise_iff_forall_sublist.2 ?_)
        intro x y hxy
        have h1 := (List.pairwise_iff_forall_sublist.1 hp) hxy
        have h2 := hpos x (hxy.subset (by simp))
        omega
      · intro j
        simp only [List.mem_map]
        constructor
        · rintro ⟨k, hk, rfl⟩
          obtain ⟨hk0, e, he, hq⟩ := (hl k).1 hk
          obtain ⟨k', rfl⟩ : ∃ k', k = k' + 1 := ⟨k - 1, by omega⟩
          exact ⟨e, by simpa using he, hq⟩
        · rintro ⟨e, he, hq⟩
          exact ⟨j + 1, (hl (j + 1)).2 ⟨by omega, e, by simpa using he, hq⟩, rfl⟩
    by_cases h0 : q a
    · have hm0 : 0 ∈ l := (h 0).2 ⟨a, by simp, h0⟩
      match l, hp, h, hm0 with
      | b :: l, hp, h, hm0 =>
        rw [List.pairwise_cons] at hp
        have hb : b = 0 := by
          rcases List.mem_cons.1 hm0 with e | e
          · exact e.symm
          · exact absurd (hp.1 0 e) (by omega)
        subst hb
        rw [List.filterMap_cons]
        simp only [List.getElem?_cons_zero]
        rw [List.filter_cons_of_pos h0, tail l hp.2 (fun j hj => hp.1 j hj)]
        intro j
        constructor
        · intro hj; exact ⟨hp.1 j hj, (h j).1 (by simp [hj])⟩
        · rintro ⟨hpos, hj⟩
          rcases List.mem_cons.1 ((h j).2 hj) with e | e
          · omega
          · exact e
    · rw [List.filter_cons_of_neg h0, tail l hp]
      · intro j hj
        obtain ⟨e, he, hq⟩ := (h j).1 hj
        cases j with
        | zero => simp only [List.getElem?_cons_zero, Option.some.injEq] at he; subst he; exact absurd hq h0
        | succ k => omega
      · intro j
        constructor
        · intro hj
          obtain ⟨e, he, hq⟩ := (h j).1 hj
          refine ⟨?_, e, he, hq⟩
          cases j with
          | zero => simp only [List.getElem?_cons_zero, Option.some.injEq] at he; subst he; exact absurd hq h0
          | succ k => omega
        · rintro ⟨_, hj⟩; exact (h j).2 hj

/-- The cached index was built from a section seen earlier. -/
def IndexFrom (l : List (Nat × List Ev)) (s : Sel) : Prop :=
  ∀ ix, s.index = some ix → ∃ p ∈ l, ∃ c, ix = build p.1 p.2 c

theorem ensureIndex_fresh {l : List (Nat × List Ev)} {s : Sel} (h : IndexFrom l s) {addr : Nat}
    {evs : List Ev} (hf : ∀ p ∈ l, p.1 = addr → p.2.length = evs.length → p.2 = evs) :
    ensureIndex s addr evs = build addr evs s.comments := by
  unfold ensureIndex
  cases hi : s.index with
  | none => rfl
  | some ix =>
    simp only
    split
    · next hk =>
      obtain ⟨p, hp, c, rfl⟩ := h ix hi
      simp only [build, Prod.mk.injEq] at hk
      have := hf p hp hk.1 hk.2.1
      obtain ⟨a, e⟩ := p
      simp only at this hk
      rw [this, hk.1, hk.2.2]
    · rfl

theorem select_spec {s : Sel} {script : List Sec} {t : Nat} {l : List (Nat × List Ev)}
    (h : IndexFrom l s)
    (hf : ∀ addr evs, firstEvents script = some (addr, evs) →
      ∀ p ∈ l, p.1 = addr → p.2.length = evs.length → p.2 = evs) :
    ∃ a s', select s script t = some (a, s') ∧
      a.idxs.Pairwise (· < ·) ∧
      (∀ j, j ∈ a.idxs ↔ ∃ addr evs e, firstEvents script = some (addr, evs) ∧ evs[j]? = some e ∧ Shown s.comments t e) ∧
      a.events = (((firstEvents script).map (·.2)).getD []).filter (fun e => decide (Shown s.comments t e)) ∧
      a.newlyActive = a.idxs.filter (fun i => !s.prev.contains i) ∧
      a.newlyInactive = s.prev.filter (fun i => !a.idxs.contains i) ∧
      s'.prev = a.idxs ∧ s'.last = some t ∧ s'.comments = s.comments ∧
      IndexFrom (l ++ (firstEvents script).toList) s' ∧
      (a.dirty = false → a.newlyActive = [] ∧ a.newlyInactive = [] ∧ hasAnimated a.events t = false ∧
        ∃ t0, s.last = some t0 ∧ ((t : Int) - t0).natAbs ≤ 100) := by
  unfold select
  cases hfe : firstEvents script with
  | none =>
    simp only [pick]
    refine ⟨_, _, rfl, List.Pairwise.nil, by simp, by simp, by simp, by simp, rfl, rfl, rfl, ?_, ?_⟩
    · intro ix hix
      obtain ⟨p, hp, c, e⟩ := h ix hix
      exact ⟨p, by simp [hp], c, e⟩
    · intro hd
      simp only [Bool.or_eq_false_iff, Bool.not_eq_false', List.isEmpty_iff] at hd
      refine ⟨hd.1.1.1, hd.1.1.2, hd.1.2, ?_⟩
      cases hl : s.last with
      | none => simp [hl] at hd
      | some t0 => exact ⟨t0, rfl, by simpa [hl] using hd.2⟩
  | some ae =>
    obtain ⟨addr, evs⟩ := ae
    have he := ensureIndex_fresh h (hf addr evs hfe)
    simp only [he]
    have hq := query_build addr evs s.comments t
    have hlt : ∀ j ∈ query (build addr evs s.comments) t, j < evs.length := by
      intro j hj
      obtain ⟨e, he, _⟩ := (hq.2 j).1 hj
      exact (List.getElem?_eq_some_iff.1 he).1
    rw [pick_some hlt]
    refine ⟨_, _, rfl, hq.1, ?_, ?_, rfl, rfl, rfl, rfl, rfl, ?_, ?_⟩
    · intro j
      rw [hq.2 j]
      constructor
      · rintro ⟨e, h1, h2⟩; exact ⟨addr, evs, e, rfl, h1, h2⟩
      · rintro ⟨a', e', e, h0, h1, h2⟩
        simp only [Option.some.injEq, Prod.mk.injEq] at h0
        rw [← h0.2] at h1
        exact ⟨e, h1, h2⟩
    · simp only [Option.map_some, Option.getD_some]
      apply filterMap_indices hq.1
      intro j
      rw [hq.2 j]
      simp
    · intro ix hix
      simp only [Option.some.injEq] at hix
      exact ⟨(addr, evs), by simp, s.comments, hix.symm⟩
    · intro hd
      simp only [Bool.or_eq_false_iff, Bool.not_eq_false', List.isEmpty_iff] at hd
      refine ⟨hd.1.1.1, hd.1.1.2, hd.1.2, ?_⟩
      cases hl : s.last with
      | none => simp [hl] at hd
      | some t0 => exact ⟨t0, rfl, by simpa [hl] using hd.2⟩

theorem runAll_indexFrom (cs : List Call) : ∀ (l : List (Nat × List Ev)) (s : Sel), IndexFrom l s →
    Faithful (l ++ seen cs) → ∃ s', runAll s cs = some s' ∧ IndexFrom (l ++ seen cs) s' := by
  induction cs with
  | nil => intro l s h _; exact ⟨s, rfl, by simpa [seen] using h⟩
  | cons c cs ih =>
    intro l s h hf
    cases c with
    | comments b => exact ih l _ h hf
    | reset => exact ih l _ h hf
    | select script t =>
      simp only [seen] at hf ⊢
      rw [← List.append_assoc] at hf ⊢
      obtain ⟨a, s', hs, _, _, _, _, _, _, _, _, hi, _⟩ := select_spec (t := t) (script := script) h (by
        intro addr evs hfe p hp h1 h2
        exact hf p (by simp [hp]) (addr, evs) (by simp [hfe]) h1 h2)
      simp only [runAll, Call.run, hs, Option.map_some, Option.bind_some]
      exact ih _ s' hi hf

end Verif.Select
