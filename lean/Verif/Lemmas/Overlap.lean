import Verif.Model.Overlap
import Verif.Spec.Overlap
import Verif.Lemmas.Sort
namespace Verif.Overlap
open Verif Verif.Spec.Ov

theorem pair_sublist_snoc {α : Type} {u v x : α} {l : List α} :
    [u, v].Sublist (l ++ [x]) ↔ [u, v].Sublist l ∨ (v = x ∧ u ∈ l) := by
  constructor
  · intro h
    rw [List.sublist_append_iff] at h
    obtain ⟨a, b, he, ha, hb⟩ := h
    match a, b, he with
    | [], [_, _], _ => exact absurd hb.length_le (by simp)
    | [p], [q], he =>
      simp only [List.cons_append, List.nil_append, List.cons.injEq, and_true] at he
      rw [he.1, he.2]
      right
      exact ⟨by simpa using hb, by simpa using ha⟩
    | [p, q], [], he =>
      simp only [List.append_nil] at he
      rw [he]; exact .inl ha
  · rintro (h | ⟨rfl, h⟩)
    · exact h.trans (List.sublist_append_left _ _)
    · have : ([u] ++ [v]).Sublist (l ++ [v]) :=
        List.Sublist.append (List.singleton_sublist.2 h) (List.Sublist.refl _)
      exact this

theorem pair_sublist_mem {α : Type} {u v : α} {l : List α} (h : [u, v].Sublist l) : u ∈ l ∧ v ∈ l :=
  ⟨h.subset (by simp), h.subset (by simp)⟩

/-- In a list without repetition, two members come in exactly one order. -/
theorem pair_total {α : Type} {u v : α} {l : List α} (hu : u ∈ l) (hv : v ∈ l) (hne : u ≠ v) :
    [u, v].Sublist l ∨ [v, u].Sublist l := by
  induction l with
  | nil => simp at hu
  | cons a l ih =>
    rcases List.mem_cons.1 hu with rfl | hu'
    · rcases List.mem_cons.1 hv with rfl | hv'
      · exact absurd rfl hne
      · left; exact (List.singleton_sublist.2 hv').cons_cons _
    · rcases List.mem_cons.1 hv with rfl | hv'
      · right; exact (List.singleton_sublist.2 hu').cons_cons _
      · rcases ih hu' hv' with h | h
        · exact .inl (h.cons _)
        · exact .inr (h.cons _)

theorem pair_antisymm {α : Type} {u v : α} {l : List α} (hn : l.Nodup) (h1 : [u, v].Sublist l)
    (h2 : [v, u].Sublist l) : False := by
  induction l with
  | nil => simp at h1
  | cons a l ih =>
    rw [List.nodup_cons] at hn
    have hne : u ≠ v := by
      have := (List.Nodup.sublist h1 (List.nodup_cons.2 hn))
      simp at this; exact this
    rcases h1 with _ | h1 | h1
    · next h1 =>
      rcases h2 with _ | h2 | h2
      · next h2 => exact ih hn.2 h1 h2
      · exact hn.1 (pair_sublist_mem h1).2
    · next h1 =>
      rcases h2 with _ | h2 | h2
      · next h2 => exact hn.1 (pair_sublist_mem h2).2
      · exact hne rfl

/-- Is this the start (resp. end) of event `i`? -/
def IsStart (i : Nat) (x : Sweep) : Prop := ∃ t, x = .start t i
def IsFin (i : Nat) (x : Sweep) : Prop := ∃ t, x = .fin t i

/-- What the sweep has computed after a prefix; `S i`, `E i` are the start and end of event `i`. -/
theorem sweep_inv (S E : Nat → Sweep) (hS : ∀ i, IsStart i (S i)) (hE : ∀ i, IsFin i (E i))
    (L : List Sweep) (hform : ∀ x ∈ L, ∃ i, x = S i ∨ x = E i) (hn : L.Nodup)
    (hord : ∀ i, ¬ [E i, S i].Sublist L) :
    (L.foldl step ([], [])).1.Nodup ∧
    (∀ a, a ∈ (L.foldl step ([], [])).1 ↔ S a ∈ L ∧ E a ∉ L) ∧
    (L.foldl step ([], [])).2.Nodup ∧
    ∀ a b, (a, b) ∈ (L.foldl step ([], [])).2 ↔ [S a, S b].Sublist L ∧ ¬ [E a, S b].Sublist L := by
  have hSE : ∀ i j, S i ≠ E j := by
    intro i j h
    obtain ⟨t, ht⟩ := hS i
    obtain ⟨u, hu⟩ := hE j
    rw [ht, hu] at h; cases h
  have hSS : ∀ i j, S i = S j ↔ i = j := by
    intro i j
    constructor
    · intro h
      obtain ⟨t, ht⟩ := hS i
      obtain ⟨u, hu⟩ := hS j
      rw [ht, hu] at h; cases h; rfl
    · rintro rfl; rfl
  have hEE : ∀ i j, E i = E j ↔ i = j := by
    intro i j
    constructor
    · intro h
      obtain ⟨t, ht⟩ := hE i
      obtain ⟨u, hu⟩ := hE j
      rw [ht, hu] at h; cases h; rfl
    · rintro rfl; rfl
  -- induction on prefixes
  have key : ∀ (n : Nat) (L : List Sweep), L.length = n → (∀ x ∈ L, ∃ i, x = S i ∨ x = E i) → L.Nodup →
      (∀ i, ¬ [E i, S i].Sublist L) →
      (L.foldl step ([], [])).1.Nodup ∧
      (∀ a, a ∈ (L.foldl step ([], [])).1 ↔ S a ∈ L ∧ E a ∉ L) ∧
      (L.foldl step ([], [])).2.Nodup ∧
      ∀ a b, (a, b) ∈ (L.foldl step ([], [])).2 ↔ [S a, S b].Sublist L ∧ ¬ [E a, S b].Sublist L := by
    intro n
    induction n with
    | zero =>
      intro L hl _ _ _
      rw [List.length_eq_zero_iff] at hl
      subst hl
      simp
    | succ n ih =>
      intro L hl hform hn hord
      have hne : L ≠ [] := by intro h; rw [h] at hl; simp at hl
      obtain ⟨pre, x, rfl⟩ : ∃ pre x, L = pre ++ [x] :=
        ⟨L.dropLast, L.getLast hne, (List.dropLast_concat_getLast hne).symm⟩
      have hsub : pre.Sublist (pre ++ [x]) := List.sublist_append_left _ _
      obtain ⟨h1, h2, h3, h4⟩ := ih pre (by simpa using hl) (fun y hy => hform y (by simp [hy]))
        (hn.sublist hsub) (fun i h => hord i (h.trans hsub))
      have hx : x ∉ pre := by
        rw [List.nodup_append] at hn
        intro hm
        exact hn.2.2 x hm x (by simp) rfl
      rw [List.foldl_append, List.foldl_cons, List.foldl_nil]
      cases hf : pre.foldl step ([], []) with
      | mk act ov =>
      rw [hf] at h1 h2 h3 h4
      obtain ⟨b, rfl | rfl⟩ := hform x (by simp)
      · -- start of b
        obtain ⟨t, ht⟩ := hS b
        have hstep : step (act, ov) (S b) = (act ++ [b], ov ++ act.map (fun a => (a, b))) := by
          rw [ht]; rfl
        rw [hstep]
        have hEb : E b ∉ pre := by
          intro h
          exact hord b (pair_sublist_snoc.2 (.inr ⟨rfl, h⟩))
        have hbact : b ∉ act := by
          intro h; exact hx ((h2 b).1 h).1
        refine ⟨?_, ?_, ?_, ?_⟩
        · rw [List.nodup_append]
          refine ⟨h1, by simp, ?_⟩
          intro a ha c hc e
          simp only [List.mem_singleton] at hc
          exact hbact (by rw [← hc, ← e]; exact ha)
        · intro a
          simp only [List.mem_append, List.mem_singleton, h2, hSS, (hSE b a).symm, or_false]
          constructor
          · rintro (⟨h, h'⟩ | rfl)
            · exact ⟨.inl h, h'⟩
            · exact ⟨.inr rfl, hEb⟩
          · rintro ⟨h | rfl, h'⟩
            · exact .inl ⟨h, h'⟩
            · exact .inr rfl
        · rw [List.nodup_append]
          refine ⟨h3, ?_, ?_⟩
          · rw [List.Nodup, List.pairwise_map]
            exact h1.imp (fun h e => h (by simpa using e))
          · rintro ⟨p, q⟩ hp r hr e
            subst e
            simp only [List.mem_map, Prod.mk.injEq] at hr
            obtain ⟨_, _, _, rfl⟩ := hr
            exact hx (pair_sublist_mem ((h4 p b).1 hp).1).2
        · intro a c
          simp only [List.mem_append, h4, List.mem_map, Prod.mk.injEq]
          rw [pair_sublist_snoc, pair_sublist_snoc, hSS]
          constructor
          · rintro (⟨h, h'⟩ | ⟨x, hx', rfl, rfl⟩)
            · refine ⟨.inl h, ?_⟩
              rintro (h'' | ⟨rfl, h''⟩)
              · exact h' h''
              · exact hx (pair_sublist_mem h).2
            · have := (h2 x).1 hx'
              refine ⟨.inr ⟨rfl, this.1⟩, ?_⟩
              rintro (h'' | ⟨_, h''⟩)
              · exact this.2 (pair_sublist_mem h'').1
              · exact this.2 h''
          · rintro ⟨h | ⟨rfl, h⟩, h'⟩
            · exact .inl ⟨h, fun h'' => h' (.inl h'')⟩
            · right
              exact ⟨a, (h2 a).2 ⟨h, fun h'' => h' (.inr ⟨rfl, h''⟩)⟩, rfl, rfl⟩
      · -- end of b
        obtain ⟨t, ht⟩ := hE b
        have hstep : step (act, ov) (E b) = (act.erase b, ov) := by rw [ht]; rfl
        rw [hstep]
        refine ⟨h1.erase _, ?_, h3, ?_⟩
        · intro a
          simp only [h1.mem_erase_iff, h2, List.mem_append, List.mem_singleton, hSE, or_false, hEE, not_or]
          constructor
          · rintro ⟨h, h', h''⟩; exact ⟨h', h'', h⟩
          · rintro ⟨h', h'', h⟩; exact ⟨h, h', h''⟩
        · intro a c
          simp only [h4]
          rw [pair_sublist_snoc, pair_sublist_snoc]
          simp [hSE]
  exact key L.length L rfl hform hn hord

theorem sweeps_some {times : List (Option (Nat × Nat))} : ∀ (i : Nat) (iv : List (Nat × Nat)),
    times = iv.map some →
    sweeps i times = some ((iv.zipIdx i).flatMap (fun p => [.start p.1.1 p.2, .fin p.1.2 p.2])) := by
  intro i iv h
  subst h
  induction iv generalizing i with
  | nil => rfl
  | cons p iv ih =>
    obtain ⟨s, e⟩ := p
    simp only [List.map_cons, sweeps, ih, Option.map_some, List.zipIdx_cons, List.flatMap_cons]
    rfl

theorem sweeps_none {times : List (Option (Nat × Nat))} (h : none ∈ times) (i : Nat) : sweeps i times = none := by
  induction times generalizing i with
  | nil => simp at h
  | cons x l ih =>
    cases x with
    | none => rfl
    | some p =>
      obtain ⟨s, e⟩ := p
      simp only [sweeps]
      rw [ih (by simpa using h)]
      rfl

theorem mem_flat {iv : List (Nat × Nat)} {x : Sweep} {k : Nat} :
    x ∈ (iv.zipIdx k).flatMap (fun p => [Sweep.start p.1.1 p.2, Sweep.fin p.1.2 p.2]) ↔
    ∃ i p, iv[i]? = some p ∧ (x = .start p.1 (k + i) ∨ x = .fin p.2 (k + i)) := by
  simp only [List.mem_flatMap, List.mem_cons, List.not_mem_nil, or_false]
  constructor
  · rintro ⟨⟨p, j⟩, hm, h⟩
    rw [List.mem_zipIdx_iff_le_and_getElem?_sub] at hm
    refine ⟨j - k, p, hm.2, ?_⟩
    have : k + (j - k) = j := by omega
    rw [this]; exact h
  · rintro ⟨i, p, hp, h⟩
    refine ⟨(p, k + i), ?_, h⟩
    rw [List.mem_zipIdx_iff_le_and_getElem?_sub]
    refine ⟨by simp, ?_⟩
    have : k + i - k = i := by omega
    simp only [this, hp]

theorem nodup_flat (iv : List (Nat × Nat)) : ∀ k,
    ((iv.zipIdx k).flatMap (fun p => [Sweep.start p.1.1 p.2, Sweep.fin p.1.2 p.2])).Nodup := by
  induction iv with
  | nil => intro k; simp
  | cons p iv ih =>
    intro k
    simp only [List.zipIdx_cons, List.flatMap_cons, List.cons_append, List.nil_append, List.nodup_cons]
    refine ⟨?_, ?_, ih (k + 1)⟩
    · intro h
      rcases List.mem_cons.1 h with h | h
      · cases h
      · obtain ⟨i, q, _, h | h⟩ := mem_flat.1 h
        · injection h with _ h; omega
        · cases h
    · intro h
      obtain ⟨i, q, _, h | h⟩ := mem_flat.1 h
      · cases h
      · injection h with _ h; omega

theorem meet_iff {a b : Nat × Nat} : Meet a b ↔ max a.1 b.1 < min a.2 b.2 := by
  constructor
  · rintro ⟨t, h1, h2⟩; omega
  · intro h; exact ⟨max a.1 b.1, by omega, by omega⟩

end Verif.Overlap
