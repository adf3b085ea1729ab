import Verif.Spec.Styles
import Verif.Lemmas.Map
namespace Verif.Styles
open Verif Verif.Spec.Sty

variable {B R : Type}

theorem known_iff {styles : List (Style B)} {n : Str} : known styles n = true ↔ ∃ s ∈ styles, s.name = n := by
  simp [known]

theorem mem_parents {styles : List (Style B)} {a b : Str} : b ∈ parents styles a ↔ Inherits styles a b := by
  unfold parents Inherits
  simp only [List.mem_filterMap, List.mem_filter, decide_eq_true_eq, Option.filter_eq_some_iff, known_iff]
  constructor
  · rintro ⟨s, ⟨h1, h2⟩, h3, h4⟩; exact ⟨s, h1, h2, h3, h4⟩
  · rintro ⟨s, h1, h2, h3, h4⟩; exact ⟨s, ⟨h1, h2⟩, h3, h4⟩

theorem keys_spec (styles : List (Style B)) :
    (keys styles).Nodup ∧ ∀ n, n ∈ keys styles ↔ ∃ s ∈ styles, s.name = n := by
  unfold keys
  have aux : ∀ (l : List (Style B)) (acc : List Str), acc.Nodup →
      (l.foldl (fun acc s => if acc.contains s.name then acc else acc ++ [s.name]) acc).Nodup ∧
      ∀ n, n ∈ l.foldl (fun acc s => if acc.contains s.name then acc else acc ++ [s.name]) acc ↔
        n ∈ acc ∨ ∃ s ∈ l, s.name = n := by
    intro l
    induction l with
    | nil => intro acc h; simp [h]
    | cons s l ih =>
      intro acc h
      simp only [List.foldl_cons]
      by_cases hc : acc.contains s.name
      · rw [if_pos hc]
        obtain ⟨h1, h2⟩ := ih acc h
        refine ⟨h1, fun n => ?_⟩
        rw [h2]
        constructor
        · rintro (h | ⟨x, hx, e⟩)
          · exact .inl h
          · exact .inr ⟨x, by simp [hx], e⟩
        · rintro (h | ⟨x, hx, e⟩)
          · exact .inl h
          · rcases List.mem_cons.1 hx with rfl | hx
            · left; rw [← e]; simpa using hc
            · exact .inr ⟨x, hx, e⟩
      · rw [if_neg hc]
        have hn : (acc ++ [s.name]).Nodup := by
          rw [List.nodup_append]
          refine ⟨h, by simp, ?_⟩
          intro a ha b hb e
          simp only [List.mem_singleton] at hb
          apply hc
          rw [← hb, ← e]
          simpa using ha
        obtain ⟨h1, h2⟩ := ih _ hn
        refine ⟨h1, fun n => ?_⟩
        rw [h2]
        simp only [List.mem_append, List.mem_cons, List.not_mem_nil, or_false]
        constructor
        · rintro ((h | h) | ⟨x, hx, e⟩)
          · exact .inl h
          · exact .inr ⟨s, .inl rfl, h.symm⟩
          · exact .inr ⟨x, .inr hx, e⟩
        · rintro (h | ⟨x, rfl | hx, e⟩)
          · exact .inl (.inl h)
          · exact .inl (.inr e.symm)
          · exact .inr ⟨x, hx, e⟩
  obtain ⟨h1, h2⟩ := aux styles [] (by simp)
  exact ⟨h1, fun n => by rw [h2]; simp⟩

/-! ### Depth-first search -/

section Dfs
variable (adj : Str → List Str)

/-- Edge relation. -/
def Edge (a b : Str) : Prop := b ∈ adj a

/-- Visited and no longer on the stack. -/
def Fin (st : DfsState) (x : Str) : Prop := x ∈ st.1 ∧ x ∉ st.2

/-- Invariant of the search: the stack is visited; finished nodes lead to finished nodes only and lie
on no cycle. -/
structure DInv (st : DfsState) : Prop where
  sub : ∀ x ∈ st.2, x ∈ st.1
  closed : ∀ x, Fin st x → ∀ y ∈ adj x, Fin st y
  acyclic : ∀ x, Fin st x → ¬ Relation.TransGen (Edge adj) x x

theorem closed_trans {P : Str → Prop} (h : ∀ x, P x → ∀ y ∈ adj x, P y) {a b : Str}
    (hr : Relation.TransGen (Edge adj) a b) (ha : P a) : P b := by
  induction hr with
  | single hab => exact h _ ha _ hab
  | tail _ hbc ih => exact h _ ih _ hbc

theorem transGen_head {a b : Str} (hr : Relation.TransGen (Edge adj) a b) :
    ∃ c ∈ adj a, c = b ∨ Relation.TransGen (Edge adj) c b := by
  induction hr with
  | single h => exact ⟨_, h, .inl rfl⟩
  | tail _ hbc ih =>
    obtain ⟨c, hc, h⟩ := ih
    rcases h with rfl | h
    · exact ⟨c, hc, .inr (.single hbc)⟩
    · exact ⟨c, hc, .inr (.tail h hbc)⟩

/-- What one call of the search establishes. -/
def Good (n : Str) (st : DfsState) (r : Bool × DfsState) : Prop :=
  if r.1 then ∃ x, Relation.TransGen (Edge adj) x x
  else DInv adj r.2 ∧ r.2.2 = st.2 ∧ (∀ x ∈ st.1, x ∈ r.2.1) ∧ Fin r.2 n

theorem dfsLoop_good (f : Str → DfsState → Option (Bool × DfsState)) (n : Str)
    (hf : ∀ m st r, f m st = some r → DInv adj st → m ∉ st.1 →
      (∀ s ∈ st.2, Relation.TransGen (Edge adj) s m) → Good adj m st r)
    : ∀ (l : List Str) (st : DfsState) (r : Bool × DfsState), (∀ m ∈ l, m ∈ adj n) →
      DInv adj st → (∀ s ∈ st.2, s = n ∨ Relation.TransGen (Edge adj) s n) →
      dfsLoop f l st = some r →
      if r.1 then ∃ x, Relation.TransGen (Edge adj) x x
      else DInv adj r.2 ∧ r.2.2 = st.2 ∧ (∀ x ∈ st.1, x ∈ r.2.1) ∧ (∀ m ∈ l, Fin r.2 m) := by
  intro l
  induction l with
  | nil =>
    intro st r _ hd _ h
    simp only [dfsLoop, Option.some.injEq] at h
    subst h
    simp [hd]
  | cons m l ih =>
    intro st r hadj hd hpath h
    have reach : ∀ s ∈ st.2, Relation.TransGen (Edge adj) s m := by
      intro s hs
      have hm : Edge adj n m := hadj m (by simp)
      rcases hpath s hs with rfl | hp
      · exact .single hm
      · exact .tail hp hm
    simp only [dfsLoop] at h
    split at h
    · next hv =>
      have hv : m ∉ st.1 := by simpa using hv
      cases hfm : f m st with
      | none => rw [hfm] at h; simp at h
      | some x =>
        obtain ⟨b, st'⟩ := x
        have hg := hf m st _ hfm hd hv reach
        rw [hfm] at h
        cases b with
        | true =>
          simp only [Option.some.injEq] at h
          subst h
          simpa [Good] using hg
        | false =>
          simp only at h
          simp only [Good, Bool.false_eq_true, if_false] at hg
          obtain ⟨g1, g2, g3, g4⟩ := hg
          have := ih st' r (fun x hx => hadj x (by simp [hx])) g1 (by rw [g2]; exact hpath) h
          by_cases hr : r.1 = true
          · rw [if_pos hr] at this ⊢; exact this
          · rw [if_neg hr] at this ⊢
            obtain ⟨i1, i2, i3, i4⟩ := this
            refine ⟨i1, i2.trans g2, fun x hx => i3 x (g3 x hx), ?_⟩
            intro x hx
            rcases List.mem_cons.1 hx with rfl | hx
            · exact ⟨i3 x g4.1, by rw [i2]; exact g4.2⟩
            · exact i4 x hx
    · next hv =>
      have hv : m ∈ st.1 := by simpa using hv
      split at h
      · next hs =>
        simp only [Option.some.injEq] at h
        subst h
        have hs : m ∈ st.2 := by simpa using hs
        simp only [if_true]
        exact ⟨m, reach m hs⟩
      · next hs =>
        have hs : m ∉ st.2 := by simpa using hs
        have := ih st r (fun x hx => hadj x (by simp [hx])) hd hpath h
        by_cases hr : r.1 = true
        · rw [if_pos hr] at this ⊢; exact this
        · rw [if_neg hr] at this ⊢
          obtain ⟨i1, i2, i3, i4⟩ := this
          refine ⟨i1, i2, i3, ?_⟩
          intro x hx
          rcases List.mem_cons.1 hx with rfl | hx
          · exact ⟨i3 x hv, by rw [i2]; exact hs⟩
          · exact i4 x hx

theorem dfs_good : ∀ (k : Nat) (n : Str) (st : DfsState) (r : Bool × DfsState), dfs adj k n st = some r →
    DInv adj st → n ∉ st.1 → (∀ s ∈ st.2, Relation.TransGen (Edge adj) s n) → Good adj n st r := by
  intro k
  induction k with
  | zero => intro n st r h; simp [dfs] at h
  | succ k ih =>
    intro n st r h hd hn hpath
    simp only [dfs] at h
    have hns : n ∉ st.2 := fun h => hn (hd.sub n h)
    have hfin : ∀ x, Fin (n :: st.1, n :: st.2) x ↔ Fin st x := by
      intro x
      simp only [Fin, List.mem_cons, not_or]
      constructor
      · rintro ⟨h1 | h1, h2, h3⟩
        · exact absurd h1 h2
        · exact ⟨h1, h3⟩
      · rintro ⟨h1, h2⟩
        exact ⟨.inr h1, fun e => hn (e ▸ h1), h2⟩
    have hd' : DInv adj (n :: st.1, n :: st.2) := by
      refine ⟨?_, ?_, ?_⟩
      · intro x hx
        rcases List.mem_cons.1 hx with rfl | hx
        · simp
        · exact List.mem_cons_of_mem _ (hd.sub x hx)
      · intro x hx y hy
        rw [hfin] at *
        exact hd.closed x hx y hy
      · intro x hx
        rw [hfin] at hx
        exact hd.acyclic x hx
    have hp' : ∀ s ∈ (n :: st.1, n :: st.2).2, s = n ∨ Relation.TransGen (Edge adj) s n := by
      intro s hs
      rcases List.mem_cons.1 hs with rfl | hs
      · exact .inl rfl
      · exact .inr (hpath s hs)
    cases hl : dfsLoop (dfs adj k) (adj n) (n :: st.1, n :: st.2) with
    | none => rw [hl] at h; simp at h
    | some x =>
      obtain ⟨b, st'⟩ := x
      have hg := dfsLoop_good adj (dfs adj k) n (fun m st r => ih m st r) (adj n) _ _
        (fun m hm => hm) hd' hp' hl
      rw [hl] at h
      cases b with
      | true =>
        simp only [Option.some.injEq] at h
        subst h
        simpa [Good] using hg
      | false =>
        simp only [Option.some.injEq] at h
        subst h
        simp only [Bool.false_eq_true, if_false] at hg
        obtain ⟨g1, g2, g3, g4⟩ := hg
        -- the stack without n is the old stack
        have hst : st'.2.filter (· ≠ n) = st.2 := by
          rw [g2, List.filter_cons_of_neg (by simp), List.filter_eq_self]
          intro x hx
          simp only [ne_eq, decide_not, Bool.not_eq_true', decide_eq_false_iff_not]
          intro e; exact hns (e ▸ hx)
        have hfin' : ∀ x, Fin (st'.1, st.2) x ↔ Fin st' x ∨ x = n := by
          intro x
          simp only [Fin, g2, List.mem_cons, not_or]
          constructor
          · rintro ⟨h1, h2⟩
            by_cases e : x = n
            · exact .inr e
            · exact .inl ⟨h1, e, h2⟩
          · rintro (⟨h1, h2, h3⟩ | rfl)
            · exact ⟨h1, h3⟩
            · exact ⟨g3 x (by simp), hns⟩
        have hnotfin : ¬ Fin st' n := by
          intro h; exact h.2 (by rw [g2]; simp)
        simp only [Good, Bool.false_eq_true, if_false, hst]
        refine ⟨⟨?_, ?_, ?_⟩, trivial, ?_, ?_⟩
        · intro x hx
          exact g3 x (List.mem_cons_of_mem _ (hd.sub x hx))
        · intro x hx y hy
          rw [hfin'] at hx ⊢
          rcases hx with hx | rfl
          · exact .inl (g1.closed x hx y hy)
          · exact .inl (g4 y hy)
        · intro x hx
          rw [hfin'] at hx
          rcases hx with hx | rfl
          · exact g1.acyclic x hx
          · intro hc
            obtain ⟨c, hc1, hc2⟩ := transGen_head adj hc
            have hcf := g4 c hc1
            rcases hc2 with rfl | hc2
            · exact hnotfin hcf
            · exact hnotfin (closed_trans adj (P := Fin st') g1.closed hc2 hcf)
        · intro x hx; exact g3 x (List.mem_cons_of_mem _ hx)
        · exact (hfin' n).2 (.inr rfl)

theorem hasCycle_good (k : Nat) : ∀ (l : List Str) (st : DfsState) (b : Bool), st.2 = [] → DInv adj st →
    hasCycle adj k l st = some b →
    if b then ∃ x, Relation.TransGen (Edge adj) x x
    else ∃ st', DInv adj st' ∧ st'.2 = [] ∧ (∀ x ∈ st.1, x ∈ st'.1) ∧ ∀ x ∈ l, x ∈ st'.1 := by
  intro l
  induction l with
  | nil =>
    intro st b hs hd h
    simp only [hasCycle, Option.some.injEq] at h
    subst h
    exact ⟨st, hd, hs, fun _ h => h, by simp⟩
  | cons n l ih =>
    intro st b hs hd h
    simp only [hasCycle] at h
    split at h
    · next hv =>
      have := ih st b hs hd h
      by_cases hr : b = true
      · rw [if_pos hr] at this ⊢; exact this
      · rw [if_neg hr] at this ⊢
        obtain ⟨st', i1, i2, i3, i4⟩ := this
        refine ⟨st', i1, i2, i3, ?_⟩
        intro x hx
        rcases List.mem_cons.1 hx with rfl | hx
        · exact i3 x (by simpa using hv)
        · exact i4 x hx
    · next hv =>
      have hv : n ∉ st.1 := by simpa using hv
      cases hf : dfs adj k n st with
      | none => rw [hf] at h; simp at h
      | some r =>
        have hg := dfs_good adj k n st r hf hd hv (by rw [hs]; simp)
        obtain ⟨b', st'⟩ := r
        rw [hf] at h
        cases b' with
        | true =>
          simp only [Option.some.injEq] at h
          subst h
          simpa [Good] using hg
        | false =>
          simp only at h
          simp only [Good, Bool.false_eq_true, if_false] at hg
          obtain ⟨g1, g2, g3, g4⟩ := hg
          have := ih st' b (by rw [g2, hs]) g1 h
          by_cases hr : b = true
          · rw [if_pos hr] at this ⊢; exact this
          · rw [if_neg hr] at this ⊢
            obtain ⟨st2, i1, i2, i3, i4⟩ := this
            refine ⟨st2, i1, i2, fun x hx => i3 x (g3 x hx), ?_⟩
            intro x hx
            rcases List.mem_cons.1 hx with rfl | hx
            · exact i3 x g4.1
            · exact i4 x hx

/-- Number of nodes of `ks` not visited yet. -/
def unvisited (ks : List Str) (V : List Str) : Nat := (ks.filter (fun x => !V.contains x)).length

theorem unvisited_mono {ks V V' : List Str} (h : ∀ x ∈ V, x ∈ V') : unvisited ks V' ≤ unvisited ks V := by
  unfold unvisited
  induction ks with
  | nil => simp
  | cons a ks ih =>
    by_cases h1 : a ∈ V'
    · by_cases h2 : a ∈ V
      · simp [h1, h2]; simpa using ih
      · simp [h1, h2]; simp at ih; omega
    · have h2 : a ∉ V := fun h' => h1 (h a h')
      simp [h1, h2]; simpa using ih

theorem unvisited_lt {ks V : List Str} {n : Str} (hn : n ∈ ks) (hv : n ∉ V) :
    unvisited ks (n :: V) < unvisited ks V := by
  unfold unvisited
  induction ks with
  | nil => simp at hn
  | cons a ks ih =>
    by_cases e : a = n
    · subst e
      have := unvisited_mono (ks := ks) (V := V) (V' := a :: V) (fun x hx => by simp [hx])
      unfold unvisited at this
      rw [List.filter_cons_of_neg (by simp), List.filter_cons_of_pos (by simpa using hv), List.length_cons]
      omega
    · have hn : n ∈ ks := by
        rcases List.mem_cons.1 hn with h | h
        · exact absurd h.symm e
        · exact h
      have := ih hn
      by_cases h2 : a ∈ V
      · simp [h2]; simpa using this
      · simp [h2, e]; simpa using this

/-- The search never runs out of fuel when it exceeds the number of unvisited nodes. -/
theorem dfs_total (ks : List Str) (hks : ∀ n, ∀ m ∈ adj n, m ∈ ks) : ∀ (k : Nat) (n : Str) (st : DfsState),
    n ∈ ks → n ∉ st.1 → unvisited ks st.1 ≤ k →
    ∃ r, dfs adj k n st = some r ∧ (∀ x ∈ st.1, x ∈ r.2.1) := by
  intro k
  induction k with
  | zero =>
    intro n st hn hv hk
    have := unvisited_lt hn hv
    omega
  | succ k ih =>
    intro n st hn hv hk
    have hlt := unvisited_lt hn hv
    have loop : ∀ (l : List Str) (st' : DfsState), (∀ m ∈ l, m ∈ ks) → unvisited ks st'.1 ≤ k →
        ∃ r, dfsLoop (dfs adj k) l st' = some r ∧ (∀ x ∈ st'.1, x ∈ r.2.1) := by
      intro l
      induction l with
      | nil => intro st' _ _; exact ⟨_, rfl, fun _ h => h⟩
      | cons m l ihl =>
        intro st' hl hk'
        simp only [dfsLoop]
        split
        · next hm =>
          obtain ⟨r, hr, hsub⟩ := ih m st' (hl m (by simp)) (by simpa using hm) hk'
          rw [hr]
          obtain ⟨b, s2⟩ := r
          cases b with
          | true => exact ⟨_, rfl, hsub⟩
          | false =>
            simp only
            obtain ⟨r2, h2, hsub2⟩ := ihl s2 (fun x hx => hl x (by simp [hx]))
              (Nat.le_trans (unvisited_mono hsub) hk')
            exact ⟨r2, h2, fun x hx => hsub2 x (hsub x hx)⟩
        · split
          · exact ⟨_, rfl, fun _ h => h⟩
          · exact ihl st' (fun x hx => hl x (by simp [hx])) hk'
    obtain ⟨r, hr, hsub⟩ := loop (adj n) (n :: st.1, n :: st.2) (fun m hm => hks n m hm) (by simp only; omega)
    simp only [dfs, hr]
    obtain ⟨b, s2⟩ := r
    cases b with
    | true => exact ⟨_, rfl, fun x hx => hsub x (by simp [hx])⟩
    | false => exact ⟨_, rfl, fun x hx => hsub x (by simp [hx])⟩

theorem hasCycle_total (ks : List Str) (hks : ∀ n, ∀ m ∈ adj n, m ∈ ks) : ∀ (l : List Str) (st : DfsState),
    (∀ n ∈ l, n ∈ ks) → ∃ b, hasCycle adj (ks.length + 1) l st = some b := by
  intro l
  induction l with
  | nil => intro st _; exact ⟨_, rfl⟩
  | cons n l ih =>
    intro st hl
    simp only [hasCycle]
    split
    · exact ih st (fun x hx => hl x (by simp [hx]))
    · next hv =>
      obtain ⟨r, hr, _⟩ := dfs_total adj ks hks (ks.length + 1) n st (hl n (by simp)) (by simpa using hv)
        (Nat.le_succ_of_le (List.length_filter_le _ _))
      rw [hr]
      obtain ⟨b, s2⟩ := r
      cases b with
      | true => exact ⟨_, rfl⟩
      | false => exact ih s2 (fun x hx => hl x (by simp [hx]))

end Dfs

/-- The cycle check is exact. -/
theorem hasCycle_iff (styles : List (Style B)) :
    ∃ b, hasCycle (parents styles) ((keys styles).length + 1) (keys styles) ([], []) = some b ∧
      (b = true ↔ Circular styles) := by
  have hk := (keys_spec styles).2
  have hks : ∀ n, ∀ m ∈ parents styles n, m ∈ keys styles := by
    intro n m hm
    rw [hk]
    obtain ⟨_, _, _, _, p, hp, e⟩ := mem_parents.1 hm
    exact ⟨p, hp, e⟩
  have hrel : Edge (parents styles) = Inherits styles := by
    funext a b; exact propext mem_parents
  obtain ⟨b, hb⟩ := hasCycle_total (parents styles) (keys styles) hks (keys styles) ([], []) (fun _ h => h)
  refine ⟨b, hb, ?_⟩
  have hd : DInv (parents styles) ([], []) := by
    refine ⟨by simp, ?_, ?_⟩ <;> (intro x hx; simp [Fin] at hx)
  have := hasCycle_good (parents styles) _ _ _ b rfl hd hb
  rw [hrel] at this
  cases b with
  | true => simpa [Circular] using this
  | false =>
    simp only [Bool.false_eq_true, if_false] at this
    simp only [Bool.false_eq_true, false_iff]
    obtain ⟨st', i1, i2, _, i4⟩ := this
    rintro ⟨a, ha⟩
    have hain : a ∈ keys styles := by
      rw [← hrel] at ha
      obtain ⟨c, hc, _⟩ := transGen_head (parents styles) ha
      rw [hk]
      obtain ⟨s, hs, e, _⟩ := mem_parents.1 hc
      exact ⟨s, hs, e⟩
    have := i1.acyclic a ⟨i4 a hain, by rw [i2]; simp⟩
    rw [hrel] at this
    exact this ha

/-! ### The topological loop only ever returns styles nobody inherits from -/

theorem relax_id {adj : Str → List Str} {cur : Str} : ∀ (ks : List Str) (st : (Str → Nat) × List Str),
    (∀ c ∈ ks, cur ∉ adj c) → relax adj cur ks st = st := by
  intro ks
  induction ks with
  | nil => intro st _; rfl
  | cons c ks ih =>
    intro st h
    obtain ⟨deg, q⟩ := st
    simp only [relax]
    rw [if_neg (by simpa using h c (by simp)), ih _ (fun x hx => h x (by simp [hx]))]

theorem topo_leaves {adj : Str → List Str} {ks : List Str} : ∀ (q : List Str) (k : Nat) (deg : Str → Nat) (res : List Str),
    (∀ x ∈ q, ∀ c ∈ ks, x ∉ adj c) → q.length < k → topo adj ks k (deg, q) res = some (res ++ q) := by
  intro q
  induction q with
  | nil =>
    intro k deg res _ hk
    obtain ⟨k, rfl⟩ : ∃ j, k = j + 1 := ⟨k - 1, by simp at hk; omega⟩
    simp [topo]
  | cons a q ih =>
    intro k deg res h hk
    obtain ⟨k, rfl⟩ : ∃ j, k = j + 1 := ⟨k - 1, by simp at hk; omega⟩
    simp only [topo]
    rw [relax_id _ _ (h a (by simp)), ih k deg (res ++ [a]) (fun x hx => h x (by simp [hx])) (by simpa using hk)]
    simp

theorem inDegree_zero {styles : List (Style B)} {n : Str} (hn : ∃ s ∈ styles, s.name = n) :
    inDegree styles n = 0 ↔ ∀ s ∈ styles, s.parent ≠ some n := by
  unfold inDegree
  rw [if_pos (known_iff.2 hn), List.length_eq_zero_iff, List.filter_eq_nil_iff]
  simp

/-- No style names an existing parent. -/
def NoLinks (styles : List (Style B)) : Prop :=
  ∀ s ∈ styles, ∀ p, s.parent = some p → ¬ ∃ q ∈ styles, q.name = p

theorem lookup_some {styles : List (Style B)} {n : Str} (h : ∃ s ∈ styles, s.name = n) :
    ∃ s, lookup styles n = some s ∧ s ∈ styles ∧ s.name = n := by
  unfold lookup
  obtain ⟨s, hs, e⟩ := h
  have hne : styles.filter (fun s => s.name = n) ≠ [] := by
    intro h0
    rw [List.filter_eq_nil_iff] at h0
    exact h0 s hs (by simpa using e)
  refine ⟨_, List.getLast?_eq_some_getLast hne, ?_⟩
  have := List.getLast_mem hne
  rw [List.mem_filter] at this
  exact ⟨this.1, by simpa using this.2⟩

theorem filterMap_lookup_length {styles : List (Style B)} : ∀ {l : List Str},
    (∀ n ∈ l, ∃ s ∈ styles, s.name = n) → (l.filterMap (lookup styles)).length = l.length := by
  intro l
  induction l with
  | nil => intro _; rfl
  | cons n l ih =>
    intro h
    obtain ⟨s, hs, _⟩ := lookup_some (h n (by simp))
    rw [List.filterMap_cons, hs]
    simp only [List.length_cons, ih (fun x hx => h x (by simp [hx]))]

theorem keys_length_le (styles : List (Style B)) : (keys styles).length ≤ styles.length := by
  unfold keys
  have aux : ∀ (l : List (Style B)) (acc : List Str),
      (l.foldl (fun acc s => if acc.contains s.name then acc else acc ++ [s.name]) acc).length
        ≤ acc.length + l.length := by
    intro l
    induction l with
    | nil => intro acc; simp
    | cons s l ih =>
      intro acc
      simp only [List.foldl_cons]
      split
      · have := ih acc; simp only [List.length_cons]; omega
      · have := ih (acc ++ [s.name]); simp only [List.length_append, List.length_cons, List.length_nil] at *; omega
  simpa using aux styles []

/-- What `build_dependency_order` returns. -/
theorem order_spec (styles : List (Style B)) :
    ∃ o, order styles = some o ∧ ∀ l, o = some l →
      NoLinks styles ∧ l = (keys styles).reverse.filterMap (lookup styles) ∧
      (keys styles).length = styles.length := by
  obtain ⟨b, hb, hcirc⟩ := hasCycle_iff styles
  have hk := keys_spec styles
  unfold order
  simp only [hb]
  cases b with
  | true => exact ⟨none, rfl, by simp⟩
  | false =>
    simp only
    have htopo := topo_leaves (adj := parents styles) (ks := keys styles)
      ((keys styles).filter (fun n => inDegree styles n = 0)).reverse ((keys styles).length + 1)
      (inDegree styles) []
      (by
        intro x hx c _ hxc
        rw [List.mem_reverse, List.mem_filter] at hx
        obtain ⟨s, hs, _, hp, hq⟩ := mem_parents.1 hxc
        have := (inDegree_zero ((hk.2 x).1 hx.1)).1 (by simpa using hx.2)
        exact this s hs hp)
      (by rw [List.length_reverse]; exact Nat.lt_succ_of_le (List.length_filter_le _ _))
    simp only [List.nil_append] at htopo
    rw [htopo]
    refine ⟨_, rfl, ?_⟩
    intro l hl
    split at hl
    · next hlen =>
      rw [filterMap_lookup_length (by
        intro n hn
        rw [List.mem_reverse, List.mem_filter] at hn
        exact (hk.2 n).1 hn.1), List.length_reverse] at hlen
      have h1 := keys_length_le styles
      have h2 := List.length_filter_le (fun n => decide (inDegree styles n = 0)) (keys styles)
      have hall : ∀ n ∈ keys styles, inDegree styles n = 0 := by
        have := List.length_filter_eq_length_iff (l := keys styles) (p := fun n => decide (inDegree styles n = 0))
        intro n hn
        simpa using this.1 (by omega) n hn
      have hfe : (keys styles).filter (fun n => decide (inDegree styles n = 0)) = keys styles := by
        rw [List.filter_eq_self]; intro n hn; simpa using hall n hn
      injection hl with hl
      refine ⟨?_, ?_, by omega⟩
      · intro s hs p hp hq
        exact (inDegree_zero hq).1 (hall p ((hk.2 p).2 hq)) s hs hp
      · rw [← hl, hfe]
    · simp at hl

/-- When the order exists, resolving in that order never uses a parent. -/
theorem resolveOrdered_plain {styles l : List (Style B)} (fromStyle : Style B → Option R)
    (withParent : Style B → R → Option R) (scale : R → R) (hno : NoLinks styles)
    (hl : ∀ s ∈ l, s ∈ styles) :
    resolveOrdered fromStyle withParent scale l = resolvePlain fromStyle scale l := by
  unfold resolveOrdered resolvePlain
  have aux : ∀ (l : List (Style B)) (m : Map Str R), (∀ s ∈ l, s ∈ styles) →
      (∀ k v, m.get k = some v → ∃ s ∈ styles, s.name = k) →
      l.foldl (fun m s =>
        let r := match s.parent with
          | some p => (match m.get p with
            | some pr => withParent s pr
            | none => fromStyle s)
          | none => fromStyle s
        match r with
        | some x => m.insert s.name (scale x)
        | none => m) m =
      l.foldl (fun m s =>
        match fromStyle s with
        | some x => m.insert s.name (scale x)
        | none => m) m := by
    intro l
    induction l with
    | nil => intro m _ _; rfl
    | cons s l ih =>
      intro m hl hm
      have hr : (match s.parent with
          | some p => (match m.get p with
            | some pr => withParent s pr
            | none => fromStyle s)
          | none => fromStyle s) = fromStyle s := by
        cases hp : s.parent with
        | none => rfl
        | some p =>
          simp only
          cases hg : m.get p with
          | none => rfl
          | some pr => exact absurd (hm p pr hg) (hno s (hl s (by simp)) p hp)
      simp only [List.foldl_cons, hr]
      apply ih
      · intro x hx; exact hl x (by simp [hx])
      · intro k v hk
        cases hf : fromStyle s with
        | none => rw [hf] at hk; exact hm k v hk
        | some y =>
          rw [hf] at hk
          simp only [Map.get_insert] at hk
          split at hk
          · next e => exact ⟨s, hl s (by simp), e.symm⟩
          · exact hm k v hk
  exact aux l [] hl (by simp)

/-- Value stored by the plain resolution: the last style of that name that resolves. -/
theorem resolvePlain_get (fromStyle : Style B → Option R) (scale : R → R) (l : List (Style B)) (n : Str) :
    (resolvePlain fromStyle scale l).get n =
      (l.filterMap (fun s => if s.name = n then fromStyle s else none)).getLast?.map scale := by
  unfold resolvePlain
  have aux : ∀ (l : List (Style B)) (m : Map Str R),
      (l.foldl (fun m s => match fromStyle s with | some x => m.insert s.name (scale x) | none => m) m).get n =
      ((l.filterMap (fun s => if s.name = n then fromStyle s else none)).getLast?.map scale).or (m.get n) := by
    intro l
    induction l with
    | nil => intro m; simp
    | cons s l ih =>
      intro m
      simp only [List.foldl_cons]
      rw [ih]
      by_cases e : s.name = n
      · simp only [List.filterMap_cons, e, if_true]
        cases hf : fromStyle s with
        | none => simp
        | some x =>
          simp only [Map.get_insert_self]
          cases hl : (l.filterMap (fun s => if s.name = n then fromStyle s else none)) with
          | nil => simp
          | cons a t =>
            rw [List.getLast?_cons_cons]
            cases hg : (a :: t).getLast? with
            | none => simp at hg
            | some y => simp
      · simp only [List.filterMap_cons, if_neg e]
        congr 1
        cases hf : fromStyle s with
        | none => rfl
        | some x => simp only; rw [Map.get_insert_ne (fun h => e h.symm)]
  exact (aux l []).trans (by simp)

end Verif.Styles
