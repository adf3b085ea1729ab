import Verif.Spec.Compare
/-!
# C149 — comparing pictures
-/
namespace Verif.Props.Compare
open Verif Verif.Compare Verif.Spec.Compare

/-! ## The visited pixels -/

theorem apart_eq (x y : Nat) : apart x y = dist x y := by
  unfold apart dist
  omega

theorem pixelDiff_eq (p q : Px) : pixelDiff p q = differ p q := by
  unfold pixelDiff differ
  simp only [apart_eq]

theorem mem_visited {a b : Pic} {c : Nat × Nat} : c ∈ visited a b ↔ InBoth a b c.1 c.2 := by
  unfold visited InBoth
  simp only [List.mem_flatMap, List.mem_map, List.mem_range]
  constructor
  · rintro ⟨y, hy, x, hx, rfl⟩
    simp only
    omega
  · rintro ⟨h1, h2, h3, h4⟩
    exact ⟨c.2, by omega, c.1, by omega, rfl⟩

theorem visited_reads (a b : Pic) : (visited a b).Pairwise (fun c d => c.2 < d.2 ∨ (c.2 = d.2 ∧ c.1 < d.1)) := by
  unfold visited
  rw [List.pairwise_flatMap]
  constructor
  · intro y _
    rw [List.pairwise_map]
    exact List.pairwise_lt_range.imp fun h => Or.inr ⟨rfl, h⟩
  · refine List.pairwise_lt_range.imp ?_
    intro y z h c hc d hd
    obtain ⟨_, _, rfl⟩ := List.mem_map.1 hc
    obtain ⟨_, _, rfl⟩ := List.mem_map.1 hd
    exact Or.inl h

/-- The entry for a visited pixel. -/
def entry (a b : Pic) (c : Nat × Nat) : Diff := ⟨c.1, c.2, a.px c.1 c.2, b.px c.1 c.2, differ (a.px c.1 c.2) (b.px c.1 c.2)⟩

theorem fold_list (a b : Pic) (L : List (Nat × Nat)) : ∀ s : Acc,
    (L.foldl (step a b) s).list = s.list ++ (L.filter (fun c => decide (differ (a.px c.1 c.2) (b.px c.1 c.2) > 10))).map (entry a b) := by
  induction L with
  | nil => intro s; simp
  | cons c L ih =>
    intro s
    rw [List.foldl_cons, ih]
    simp only [step, pixelDiff_eq]
    by_cases h : differ (a.px c.1 c.2) (b.px c.1 c.2) > 10
    · rw [if_pos h, List.filter_cons_of_pos (by simpa using h)]
      simp [entry]
    · rw [if_neg h, List.filter_cons_of_neg (by simpa using h)]

theorem fold_total (a b : Pic) (L : List (Nat × Nat)) : ∀ s : Acc,
    (L.foldl (step a b) s).total = s.total + (L.map (fun c => differ (a.px c.1 c.2) (b.px c.1 c.2))).sum := by
  induction L with
  | nil => intro s; simp [Rat.add_zero]
  | cons c L ih =>
    intro s
    rw [List.foldl_cons, ih, List.map_cons, List.sum_cons]
    simp only [step, pixelDiff_eq]
    rw [Rat.add_assoc]

theorem fold_max (a b : Pic) (L : List (Nat × Nat)) : ∀ s : Acc,
    s.max ≤ (L.foldl (step a b) s).max ∧ (∀ c ∈ L, differ (a.px c.1 c.2) (b.px c.1 c.2) ≤ (L.foldl (step a b) s).max) ∧
    ((L.foldl (step a b) s).max = s.max ∨ ∃ c ∈ L, (L.foldl (step a b) s).max = differ (a.px c.1 c.2) (b.px c.1 c.2)) := by
  induction L with
  | nil => intro s; exact ⟨Rat.le_refl, by simp, Or.inl rfl⟩
  | cons c L ih =>
    intro s
    rw [List.foldl_cons]
    obtain ⟨h1, h2, h3⟩ := ih (step a b s c)
    have hm : (step a b s c).max = if differ (a.px c.1 c.2) (b.px c.1 c.2) > s.max then differ (a.px c.1 c.2) (b.px c.1 c.2) else s.max := by
      simp only [step, pixelDiff_eq]
    have hs : s.max ≤ (step a b s c).max := by
      rw [hm]; split
      · grind
      · exact Rat.le_refl
    have hd : differ (a.px c.1 c.2) (b.px c.1 c.2) ≤ (step a b s c).max := by
      rw [hm]; split
      · exact Rat.le_refl
      · grind
    refine ⟨Rat.le_trans hs h1, ?_, ?_⟩
    · intro d hd'
      rcases List.mem_cons.1 hd' with rfl | h
      · exact Rat.le_trans hd h1
      · exact h2 d h
    · rcases h3 with h3 | ⟨d, hd', h3⟩
      · rw [h3, hm]
        split
        · exact Or.inr ⟨c, List.mem_cons_self, rfl⟩
        · exact Or.inl rfl
      · exact Or.inr ⟨d, List.mem_cons_of_mem _ hd', h3⟩

theorem sum_range (f : Nat → Rat) (n : Nat) : ((List.range n).map f).sum = sum f n := by
  induction n with
  | zero => rfl
  | succ n ih =>
    rw [List.range_succ, List.map_append, List.sum_append, ih]
    simp [sum, Rat.add_zero]

theorem sum_visited (a b : Pic) (f : Nat → Nat → Rat) :
    ((visited a b).map (fun c => f c.1 c.2)).sum = sum (fun y => sum (fun x => f x y) (min a.w b.w)) (min a.h b.h) := by
  unfold visited
  rw [List.map_flatMap]
  have : ∀ n, ((List.range n).flatMap fun y => ((List.range (min a.w b.w)).map fun x => (x, y)).map (fun c => f c.1 c.2)).sum =
      sum (fun y => sum (fun x => f x y) (min a.w b.w)) n := by
    intro n
    induction n with
    | zero => rfl
    | succ n ih =>
      rw [List.range_succ, List.flatMap_append, List.sum_append, ih]
      simp [sum, sum_range (fun x => f x n), List.map_map, Function.comp_def]
  exact this _

theorem differ_nonneg (p q : Px) : 0 ≤ differ p q := by
  unfold differ
  have : (0 : Rat) ≤ ((dist p.r q.r + dist p.g q.g + dist p.b q.b + dist p.a q.a : Nat) : Rat) := Rat.natCast_nonneg
  grind

theorem differ_zero {p q : Px} : differ p q = 0 ↔ p = q := by
  unfold differ
  constructor
  · intro h
    have h' : ((dist p.r q.r + dist p.g q.g + dist p.b q.b + dist p.a q.a : Nat) : Rat) = ((0 : Nat) : Rat) := by
      have : ((0 : Nat) : Rat) = 0 := rfl
      rw [this]; grind
    have h2 := Rat.natCast_inj.1 h'
    unfold dist at h2
    cases p; cases q
    simp only at h2
    simp only [Px.mk.injEq]
    omega
  · rintro rfl
    simp [dist]
    decide +kernel

theorem differ_comm (p q : Px) : differ p q = differ q p := by
  unfold differ dist
  simp only [Nat.max_comm, Nat.min_comm]

theorem viaF32_small {n : Nat} (h : n < 2 ^ 24) : viaF32 n = n := by unfold viaF32; rw [if_pos h]

theorem compare_ok {a b : Pic} {r : Result} (h : compareWith a b = .ok r) :
    r.list = ((visited a b).foldl (step a b) ⟨[], 0, 0⟩).list ∧ r.max = ((visited a b).foldl (step a b) ⟨[], 0, 0⟩).max ∧
    r.different = r.list.length ∧ r.total = viaF32 (a.w * a.h) ∧
    r.average = ((visited a b).foldl (step a b) ⟨[], 0, 0⟩).total / (viaF32 (a.w * a.h) : Nat) := by
  unfold compareWith at h
  simp only at h
  split at h
  · injection h with h
    subst h
    exact ⟨rfl, rfl, rfl, rfl, rfl⟩
  · cases h

/-! ## C149 -/

/-- **C149 (it returns).** The comparison gives a report for all pictures of fewer than 2^32 pixels. -/
theorem C149_total (a b : Pic) : (∃ r, compareWith a b = .ok r) ↔ a.w * a.h < 2 ^ 32 := by
  unfold compareWith
  simp only
  constructor
  · rintro ⟨r, h⟩
    split at h
    · assumption
    · cases h
  · intro h
    rw [if_pos h]
    exact ⟨_, rfl⟩

/-- **C149 (the list).** Exactly the pixels that lie in both pictures and differ by more than ten on average are listed, each
once, row by row, with their two colours; their number is the one reported. -/
theorem C149_list {a b : Pic} {r : Result} (h : compareWith a b = .ok r) :
    (∀ d, d ∈ r.list ↔ InBoth a b d.x d.y ∧ d.ours = a.px d.x d.y ∧ d.theirs = b.px d.x d.y ∧ d.difference = differ d.ours d.theirs ∧
      d.difference > 10) ∧ r.list.Pairwise Reads ∧ r.different = r.list.length := by
  obtain ⟨h1, -, h3, -⟩ := compare_ok h
  rw [h1, fold_list, List.nil_append]
  refine ⟨?_, ?_, by rw [h3, h1, fold_list, List.nil_append]⟩
  · intro d
    simp only [List.mem_map, List.mem_filter, decide_eq_true_eq, mem_visited]
    constructor
    · rintro ⟨c, ⟨hc, hd⟩, rfl⟩
      exact ⟨hc, rfl, rfl, rfl, hd⟩
    · rintro ⟨hc, e1, e2, e3, hd⟩
      refine ⟨(d.x, d.y), ⟨hc, ?_⟩, ?_⟩
      · simp only; rw [← e1, ← e2, ← e3]; exact hd
      · cases d
        simp only [entry] at *
        subst e1 e2 e3
        rfl
  · rw [List.pairwise_map]
    exact ((visited_reads a b).filter _).imp fun h => h

/-- **C149 (the largest difference).** No pixel that lies in both pictures differs by more than the reported maximum, and one
differs by that much (or there is none that differs). -/
theorem C149_max {a b : Pic} {r : Result} (h : compareWith a b = .ok r) :
    (∀ x y, InBoth a b x y → differ (a.px x y) (b.px x y) ≤ r.max) ∧
    (r.max = 0 ∨ ∃ x y, InBoth a b x y ∧ r.max = differ (a.px x y) (b.px x y)) := by
  obtain ⟨-, h2, -⟩ := compare_ok h
  obtain ⟨-, g2, g3⟩ := fold_max a b (visited a b) ⟨[], 0, 0⟩
  rw [h2]
  refine ⟨fun x y hxy => g2 (x, y) (mem_visited.2 hxy), ?_⟩
  rcases g3 with g | ⟨c, hc, g⟩
  · exact Or.inl g
  · exact Or.inr ⟨c.1, c.2, mem_visited.1 hc, g⟩

/-- **C149 (the average), partial.** For two pictures of one size with at most 2^24 pixels: the reported number of pixels is
theirs, and the average is the sum of the differences divided by it.

Missing: pictures of different sizes (`C149_size_violated`), larger pictures (`C149_count_violated`). -/
theorem C149_average_partial {a b : Pic} {r : Result} (h : compareWith a b = .ok r) (hw : a.w = b.w) (hh : a.h = b.h)
    (hn : a.w * a.h < 2 ^ 24) :
    r.total = a.w * a.h ∧
    r.average = sum (fun y => sum (fun x => differ (a.px x y) (b.px x y)) a.w) a.h / ((a.w * a.h : Nat) : Rat) := by
  obtain ⟨-, -, -, h4, h5⟩ := compare_ok h
  rw [h4, h5, viaF32_small hn, fold_total, sum_visited a b (fun x y => differ (a.px x y) (b.px x y)), ← hw, ← hh, Nat.min_self,
    Nat.min_self]
  refine ⟨rfl, ?_⟩
  show (0 + _) / _ = _
  rw [Rat.zero_add]

/-- **C149 (sameness), partial.** For two pictures of one size, the reported maximum is 0 if and only if they are the same; the
number of different pixels and the maximum do not depend on which picture comes first.

Missing: pictures of different sizes (`C149_size_violated`). -/
theorem C149_same_partial {a b : Pic} {r : Result} (h : compareWith a b = .ok r) (hw : a.w = b.w) (hh : a.h = b.h) :
    (r.max = 0 ↔ Same a b) ∧
    ∃ q, compareWith b a = .ok q ∧ q.max = r.max ∧ q.different = r.different ∧ q.average = r.average ∧ q.total = r.total := by
  constructor
  · obtain ⟨g1, g2⟩ := C149_max h
    constructor
    · intro h0
      refine ⟨hw, hh, fun x y hx hy => ?_⟩
      have := g1 x y ⟨hx, by omega, hy, by omega⟩
      rw [h0] at this
      exact differ_zero.1 (Rat.le_antisymm this (differ_nonneg _ _))
    · rintro ⟨-, -, h0⟩
      rcases g2 with g | ⟨x, y, hxy, g⟩
      · exact g
      · rw [g, h0 x y hxy.1 hxy.2.2.1]
        exact differ_zero.2 rfl
  · have hv : visited b a = visited a b := by unfold visited; rw [hw, hh]
    have hlt : a.w * a.h < 2 ^ 32 := (C149_total a b).1 ⟨r, h⟩
    have hn : b.w * b.h = a.w * a.h := by rw [hw, hh]
    obtain ⟨q, hq⟩ := (C149_total b a).2 (by omega)
    refine ⟨q, hq, ?_⟩
    obtain ⟨p1, p2, p3, p4, p5⟩ := compare_ok h
    obtain ⟨q1, q2, q3, q4, q5⟩ := compare_ok hq
    rw [hv] at q1 q2 q5
    rw [hn] at q4 q5
    have e : ∀ c : Nat × Nat, differ (b.px c.1 c.2) (a.px c.1 c.2) = differ (a.px c.1 c.2) (b.px c.1 c.2) := fun c => differ_comm _ _
    refine ⟨?_, ?_, ?_, by rw [q4, p4]⟩
    · rw [q2, p2]
      have : ∀ (L : List (Nat × Nat)) (s t : Acc), s.max = t.max → (L.foldl (step b a) s).max = (L.foldl (step a b) t).max := by
        intro L
        induction L with
        | nil => intro s t h; exact h
        | cons c L ih =>
          intro s t h
          rw [List.foldl_cons, List.foldl_cons]
          refine ih _ _ ?_
          simp only [step, pixelDiff_eq, e, h]
      exact this _ _ _ rfl
    · rw [q3, p3, q1, p1, fold_list, fold_list]
      simp only [e, List.nil_append, List.length_map]
    · rw [q5, p5, fold_total, fold_total]
      simp only [e]

/-- Two pictures. -/
def exA : Pic := ⟨2, 2, fun x y => if x = 1 ∧ y = 1 then ⟨100, 0, 0, 255⟩ else ⟨0, 0, 0, 255⟩⟩
def exB : Pic := ⟨2, 2, fun x y => if x = 1 ∧ y = 0 then ⟨20, 16, 0, 255⟩ else if x = 1 ∧ y = 1 then ⟨140, 40, 2, 255⟩ else ⟨0, 0, 0, 255⟩⟩

example : compareWith exA exB = .ok ⟨59 / 8, 41 / 2, 1, 4, [⟨1, 1, ⟨100, 0, 0, 255⟩, ⟨140, 40, 2, 255⟩, 41 / 2⟩]⟩ := by decide +kernel

/-- **C149 (sizes), disagreement.** Pictures of different sizes count as equal when they agree where both have pixels, and the
average is taken over the first picture only: which one comes first decides how different they are. -/
theorem C149_size_violated :
    (∃ a b : Pic, ¬ Same a b ∧ compareWith a b = .ok ⟨0, 0, 0, 1, []⟩) ∧
    ∃ a b : Pic, ∃ r q, compareWith a b = .ok r ∧ compareWith b a = .ok q ∧ r.average = 40 ∧ q.average = 20 := by
  refine ⟨⟨⟨1, 1, fun _ _ => ⟨9, 9, 9, 255⟩⟩, ⟨2, 1, fun _ _ => ⟨9, 9, 9, 255⟩⟩, fun h => absurd h.1 (by decide), by decide +kernel⟩,
    ⟨1, 1, fun _ _ => ⟨80, 80, 0, 255⟩⟩, ⟨2, 1, fun _ _ => ⟨0, 0, 0, 255⟩⟩, ⟨_, _, _, _, _⟩, ⟨_, _, _, _, _⟩, rfl, rfl, by decide +kernel,
    by decide +kernel⟩

/-- **C149 (the number of pixels), disagreement.** The number of pixels goes through a 32-bit float: for a picture of 4097 by
4097 pixels it is one too small. -/
theorem C149_count_violated (a b : Pic) (hw : a.w = 4097) (hh : a.h = 4097) : ∃ r, compareWith a b = .ok r ∧ r.total = a.w * a.h - 1 := by
  obtain ⟨r, h⟩ := (C149_total a b).2 (by rw [hw, hh]; decide)
  refine ⟨r, h, ?_⟩
  rw [(compare_ok h).2.2.2.1, hw, hh]
  decide +kernel

/-! ## The picture of both -/

/-- **C149 (side by side), partial.** The comparison picture shows the first picture at the left, the second beside it and the
map of differences, if there is one, at the right, and nothing else.

Missing: a map of differences higher than both pictures (`C149_cut_violated`). -/
theorem C149_beside_partial {a b : Pic} {d : Option Pic} {p : Pic} (h : comparison a b d = .ok p) :
    p.w = a.w + b.w + (match d with | some d => d.w | none => 0) ∧ p.h = max a.h b.h ∧
    (∀ x y, x < a.w → y < a.h → p.px x y = a.px x y) ∧
    (∀ x y, x < b.w → y < b.h → p.px (a.w + x) y = b.px x y) ∧
    (∀ m, d = some m → ∀ x y, x < m.w → y < m.h → p.px (a.w + b.w + x) y = m.px x y) ∧
    (∀ x y, (x < a.w → a.h ≤ y) → (a.w ≤ x → x < a.w + b.w → b.h ≤ y) →
      (∀ m, d = some m → a.w + b.w ≤ x → x < a.w + b.w + m.w → m.h ≤ y) → p.px x y = ⟨0, 0, 0, 0⟩) := by
  unfold comparison at h
  simp only at h
  split at h
  · cases h
  split at h
  · cases h
  injection h with h
  subst h
  cases d with
  | none =>
    refine ⟨rfl, rfl, ?_, ?_, nofun, ?_⟩
    · intro x y hx hy
      simp only [draw]
      rw [if_neg (by omega), if_pos (by omega)]
      simp
    · intro x y hx hy
      simp only [draw]
      rw [if_pos (by omega)]
      simp
    · intro x y h1 h2 _
      simp only [draw]
      rw [if_neg (by omega), if_neg (by omega)]
      rfl
  | some m =>
    refine ⟨rfl, rfl, ?_, ?_, ?_, ?_⟩
    · intro x y hx hy
      simp only [draw]
      rw [if_neg (by omega), if_neg (by omega), if_pos (by omega)]
      simp
    · intro x y hx hy
      simp only [draw]
      rw [if_neg (by omega), if_pos (by omega)]
      simp
    · intro k e x y hx hy
      cases e
      simp only [draw]
      rw [if_pos (by omega)]
      congr 1
      omega
    · intro x y h1 h2 h3
      have h3 := h3 m rfl
      simp only [draw]
      rw [if_neg (by omega), if_neg (by omega), if_neg (by omega)]
      rfl

example : (match comparison exA exB (some exA) with | .ok p => decide (p.w = 6 ∧ p.h = 2 ∧ p.px 3 0 = ⟨20, 16, 0, 255⟩) | _ => false) = true := by
  decide +kernel

/-- **C149 (the map of differences), disagreement.** A map of differences that is higher than both pictures is cut off. -/
theorem C149_cut_violated : ∃ a m p : Pic, comparison a a (some m) = .ok p ∧ p.h < m.h :=
  ⟨⟨1, 1, fun _ _ => clear⟩, ⟨1, 2, fun _ _ => clear⟩, _, rfl, by decide⟩

/-! ## The reference picture -/

theorem put_size (f : Pic) (i : Image) (r c : Nat) : (put f i r c).w = f.w ∧ (put f i r c).h = f.h := by
  unfold put
  simp only
  repeat' split
  all_goals exact ⟨rfl, rfl⟩

theorem put_px (f : Pic) (i : Image) (r c x y : Nat) (hx : x < f.w) (hy : y < f.h) :
    (put f i r c).px x y = if i.y + r = y ∧ i.x + c = x ∧ i.cov r c * (255 - i.alpha) / 255 ≠ 0
      then over (f.px x y) i.r i.g i.b (i.cov r c * (255 - i.alpha) / 255) else f.px x y := by
  unfold put
  simp only
  split
  · rw [if_neg (by omega)]
  split
  · rw [if_neg (by omega)]
  split
  · next h => rw [if_neg (fun k => k.2.2 h)]
  · next h0 h1 h2 =>
    simp only
    by_cases hp : x = (i.x + ↑c).toNat ∧ y = (i.y + ↑r).toNat
    · rw [if_pos hp, if_pos ⟨by omega, by omega, h2⟩]
    · rw [if_neg hp, if_neg (fun k => hp ⟨by omega, by omega⟩)]

theorem fold_put (i : Image) (x y : Nat) : ∀ (L : List (Nat × Nat)) (f : Pic), x < f.w → y < f.h → L.Nodup →
    (L.foldl (fun f c => put f i c.1 c.2) f).w = f.w ∧ (L.foldl (fun f c => put f i c.1 c.2) f).h = f.h ∧
    (∀ c ∈ L, i.y + c.1 = y → i.x + c.2 = x →
      (L.foldl (fun f c => put f i c.1 c.2) f).px x y = if i.cov c.1 c.2 * (255 - i.alpha) / 255 = 0 then f.px x y
        else over (f.px x y) i.r i.g i.b (i.cov c.1 c.2 * (255 - i.alpha) / 255)) ∧
    ((∀ c ∈ L, i.y + c.1 = y → i.x + c.2 ≠ x) → (L.foldl (fun f c => put f i c.1 c.2) f).px x y = f.px x y) := by
  intro L
  induction L with
  | nil => intro f _ _ _; exact ⟨rfl, rfl, by simp, fun _ => rfl⟩
  | cons d L ih =>
    intro f hx hy hn
    obtain ⟨hn1, hn2⟩ := List.nodup_cons.1 hn
    have hs := put_size f i d.1 d.2
    obtain ⟨g1, g2, g3, g4⟩ := ih (put f i d.1 d.2) (by omega) (by omega) hn2
    rw [List.foldl_cons]
    have hput := put_px f i d.1 d.2 x y hx hy
    refine ⟨by rw [g1, hs.1], by rw [g2, hs.2], ?_, ?_⟩
    · intro c hc hcy hcx
      rcases List.mem_cons.1 hc with rfl | hc
      · rw [g4 (fun c' hc' e1 e2 => hn1 (by
          have : c' = c := Prod.ext (by omega) (by omega)
          exact this ▸ hc')), hput]
        by_cases h0 : i.cov c.1 c.2 * (255 - i.alpha) / 255 = 0
        · rw [if_pos h0, if_neg (fun k => k.2.2 h0)]
        · rw [if_neg h0, if_pos ⟨hcy, hcx, h0⟩]
      · have : ¬ (i.y + ↑d.1 = ↑y ∧ i.x + ↑d.2 = ↑x ∧ i.cov d.1 d.2 * (255 - i.alpha) / 255 ≠ 0) := by
          rintro ⟨k1, k2, -⟩
          apply hn1
          have : c = d := Prod.ext (by omega) (by omega)
          exact this ▸ hc
        rw [g3 c hc hcy hcx, hput, if_neg this]
    · intro hno
      rw [g4 (fun c hc => hno c (List.mem_cons_of_mem _ hc)), hput, if_neg]
      rintro ⟨k1, k2, -⟩
      exact hno d List.mem_cons_self k1 k2

theorem cells_nodup (h w : Nat) : ((List.range h).flatMap fun row => (List.range w).map fun col => (row, col)).Nodup := by
  unfold List.Nodup
  rw [List.pairwise_flatMap]
  constructor
  · intro y _
    rw [List.pairwise_map]
    exact List.pairwise_lt_range.imp fun h e => by
      have := congrArg Prod.snd e
      simp only at this
      omega
  · refine List.pairwise_lt_range.imp ?_
    intro y z h c hc d hd e
    obtain ⟨_, _, rfl⟩ := List.mem_map.1 hc
    obtain ⟨_, _, rfl⟩ := List.mem_map.1 hd
    have := congrArg Prod.fst e
    simp only at this
    omega

theorem fold_size (i : Image) : ∀ (L : List (Nat × Nat)) (f : Pic),
    (L.foldl (fun f c => put f i c.1 c.2) f).w = f.w ∧ (L.foldl (fun f c => put f i c.1 c.2) f).h = f.h := by
  intro L
  induction L with
  | nil => intro f; exact ⟨rfl, rfl⟩
  | cons d L ih =>
    intro f
    rw [List.foldl_cons, (ih _).1, (ih _).2]
    exact put_size f i d.1 d.2

/-- **C149 (one bitmap).** Putting a bitmap on a picture changes the pixels it covers, each once and by its own strength, and no
others, wherever the bitmap lies. -/
theorem C149_bitmap (f : Pic) (i : Image) :
    (composite f i).w = f.w ∧ (composite f i).h = f.h ∧
    ∀ x y, x < f.w → y < f.h →
      (∀ sa, Covers i x y sa → sa ≠ 0 → (composite f i).px x y = over (f.px x y) i.r i.g i.b sa) ∧
      ((∀ sa, Covers i x y sa → sa = 0) → (composite f i).px x y = f.px x y) := by
  refine ⟨(fold_size i _ f).1, (fold_size i _ f).2, fun x y hx hy => ?_⟩
  obtain ⟨-, -, h3, h4⟩ := fold_put i x y _ f hx hy (cells_nodup i.h i.w)
  constructor
  · rintro sa ⟨r, c, hr, hc, ey, ex, rfl⟩ h0
    have := h3 (r, c) (by simp [hr, hc]) ey ex
    rw [if_neg h0] at this
    exact this
  · intro hno
    by_cases hcov : ∃ sa, Covers i x y sa
    · obtain ⟨sa, r, c, hr, hc, ey, ex, e⟩ := hcov
      have := h3 (r, c) (by simp [hr, hc]) ey ex
      rw [if_pos (hno _ ⟨r, c, hr, hc, ey, ex, rfl⟩)] at this
      exact this
    · refine h4 ?_
      rintro ⟨r, c⟩ hm ey ex
      simp only [List.mem_flatMap, List.mem_map, List.mem_range, Prod.mk.injEq] at hm
      obtain ⟨_, hr, _, hc, rfl, rfl⟩ := hm
      exact hcov ⟨_, _, _, hr, hc, ey, ex, rfl⟩

/-- **C149 (order).** The last bitmap of the list is put on the picture of the others. -/
theorem C149_order (w h : Nat) (images : List Image) (i : Image) :
    reference w h (images ++ [i]) = composite (reference w h images) i := by
  unfold reference
  rw [List.foldl_append]
  rfl

/-- **C149 (all bitmaps).** The reference picture has the size asked for, and is transparent where no bitmap lies. -/
theorem C149_reference (w h : Nat) (images : List Image) :
    (reference w h images).w = w ∧ (reference w h images).h = h ∧
    ∀ x y, x < w → y < h → (∀ i ∈ images, ∀ sa, Covers i x y sa → sa = 0) → (reference w h images).px x y = ⟨0, 0, 0, 0⟩ := by
  unfold reference
  have : ∀ (L : List Image) (f : Pic), (L.foldl composite f).w = f.w ∧ (L.foldl composite f).h = f.h ∧
      ∀ x y, x < f.w → y < f.h → (∀ i ∈ L, ∀ sa, Covers i x y sa → sa = 0) → (L.foldl composite f).px x y = f.px x y := by
    intro L
    induction L with
    | nil => intro f; exact ⟨rfl, rfl, fun _ _ _ _ _ => rfl⟩
    | cons i L ih =>
      intro f
      obtain ⟨g1, g2, g3⟩ := C149_bitmap f i
      obtain ⟨k1, k2, k3⟩ := ih (composite f i)
      rw [List.foldl_cons]
      refine ⟨by rw [k1, g1], by rw [k2, g2], fun x y hx hy hno => ?_⟩
      rw [k3 x y (by omega) (by omega) (fun j hj => hno j (List.mem_cons_of_mem _ hj))]
      exact (g3 x y hx hy).2 (hno i List.mem_cons_self)
  exact this images ⟨w, h, fun _ _ => clear⟩

/-- **C149 (mixing), partial.** A colour put on a pixel with a strength: on a transparent pixel it is taken as it is; with full
strength it replaces what was there; on an opaque pixel the result is opaque and each channel the weighted mean, rounded down.
The opacity is never less than either of the two.

Missing: the colours of half transparent pixels (`C149_mix_violated`). -/
theorem C149_mix_partial (d : Px) (r g b sa : Nat) (hd : Bytes d) (hr : r < 256) (hg : g < 256) (hb : b < 256) (h0 : 0 < sa) (hsa : sa < 256) :
    (d.a = 0 → over d r g b sa = ⟨r, g, b, sa⟩) ∧
    (sa = 255 → over d r g b sa = ⟨r, g, b, 255⟩) ∧
    (d.a = 255 → ∃ r' g' b', over d r g b sa = ⟨r', g', b', 255⟩ ∧
      (255 * r' ≤ r * sa + d.r * (255 - sa) ∧ r * sa + d.r * (255 - sa) < 255 * (r' + 1)) ∧
      (255 * g' ≤ g * sa + d.g * (255 - sa) ∧ g * sa + d.g * (255 - sa) < 255 * (g' + 1)) ∧
      (255 * b' ≤ b * sa + d.b * (255 - sa) ∧ b * sa + d.b * (255 - sa) < 255 * (b' + 1))) ∧
    sa ≤ (over d r g b sa).a ∧ d.a ≤ (over d r g b sa).a ∧ Bytes (over d r g b sa) := by
  obtain ⟨d1, d2, d3, d4⟩ := hd
  have hout : sa + d.a * (255 - sa) / 255 ≠ 0 := by omega
  have hle : d.a * (255 - sa) / 255 ≤ 255 - sa := by
    rw [Nat.div_le_iff_le_mul_add_pred (by decide)]
    have : d.a * (255 - sa) ≤ 255 * (255 - sa) := Nat.mul_le_mul_right _ (by omega)
    omega
  have hge : d.a ≤ sa + d.a * (255 - sa) / 255 := by
    by_cases hs : d.a ≤ sa
    · omega
    · have : d.a - sa ≤ d.a * (255 - sa) / 255 := by
        rw [Nat.le_div_iff_mul_le (by decide)]
        have e : d.a * (255 - sa) = d.a * 255 - d.a * sa := Nat.mul_sub _ _ _
        have : d.a * sa ≤ 255 * sa := Nat.mul_le_mul_right _ (by omega)
        have : (d.a - sa) * 255 = d.a * 255 - sa * 255 := Nat.sub_mul _ _ _
        omega
      omega
  have hov : over d r g b sa = ⟨((r * sa + d.r * d.a * (255 - sa) / 255) / (sa + d.a * (255 - sa) / 255)) % 256,
      ((g * sa + d.g * d.a * (255 - sa) / 255) / (sa + d.a * (255 - sa) / 255)) % 256,
      ((b * sa + d.b * d.a * (255 - sa) / 255) / (sa + d.a * (255 - sa) / 255)) % 256, (sa + d.a * (255 - sa) / 255) % 256⟩ := by
    unfold over
    simp only
    rw [if_neg hout]
  refine ⟨?_, ?_, ?_, ?_, ?_, ?_⟩
  · intro ha
    rw [hov, ha]
    simp only [Nat.mul_zero, Nat.zero_mul, Nat.zero_div, Nat.add_zero, Nat.mul_div_cancel _ h0]
    rw [Nat.mod_eq_of_lt hr, Nat.mod_eq_of_lt hg, Nat.mod_eq_of_lt hb, Nat.mod_eq_of_lt hsa]
  · rintro rfl
    rw [hov]
    simp only [Nat.sub_self, Nat.mul_zero, Nat.zero_div, Nat.add_zero, Nat.mul_div_cancel _ (show 0 < 255 by decide)]
    rw [Nat.mod_eq_of_lt hr, Nat.mod_eq_of_lt hg, Nat.mod_eq_of_lt hb]
  · intro ha
    have e1 : sa + d.a * (255 - sa) / 255 = 255 := by rw [ha, Nat.mul_div_cancel_left _ (by decide)]; omega
    have key : ∀ sc dc : Nat, sc < 256 → dc < 256 →
        ((sc * sa + dc * d.a * (255 - sa) / 255) / (sa + d.a * (255 - sa) / 255)) % 256 = (sc * sa + dc * (255 - sa)) / 255 := by
      intro sc dc h1 h2
      have e2 : dc * d.a * (255 - sa) / 255 = dc * (255 - sa) := by
        rw [ha, Nat.mul_comm dc 255, Nat.mul_assoc, Nat.mul_div_cancel_left _ (by decide)]
      rw [e1, e2]
      apply Nat.mod_eq_of_lt
      have a1 : sc * sa ≤ 255 * sa := Nat.mul_le_mul_right _ (by omega)
      have a2 : dc * (255 - sa) ≤ 255 * (255 - sa) := Nat.mul_le_mul_right _ (by omega)
      omega
    refine ⟨(r * sa + d.r * (255 - sa)) / 255, (g * sa + d.g * (255 - sa)) / 255, (b * sa + d.b * (255 - sa)) / 255, ?_, ?_, ?_, ?_⟩
    · rw [hov, key r d.r hr d1, key g d.g hg d2, key b d.b hb d3, e1]
    all_goals omega
  · rw [hov]; simp only; omega
  · rw [hov]; simp only; omega
  · rw [hov]
    exact ⟨Nat.mod_lt _ (by decide), Nat.mod_lt _ (by decide), Nat.mod_lt _ (by decide), Nat.mod_lt _ (by decide)⟩

example : Bytes ⟨10, 20, 30, 255⟩ ∧ over ⟨10, 20, 30, 255⟩ 255 0 0 128 = ⟨132, 9, 14, 255⟩ := by
  unfold Bytes; decide

/-- **C149 (mixing), disagreement.** A channel of a half transparent pixel can leave the range of a byte and wrap around: faint
white on fainter white gives grey. -/
theorem C149_mix_violated : over ⟨255, 255, 255, 1⟩ 255 255 255 2 = ⟨125, 125, 125, 2⟩ := by decide

/-- Two bitmaps, one of them partly outside. -/
example : ∃ i j : Image, (reference 3 2 [i, j]).px 0 0 = ⟨255, 0, 0, 255⟩ ∧ (reference 3 2 [i, j]).px 2 1 = ⟨0, 0, 255, 128⟩ ∧
    (reference 3 2 [i, j]).px 1 0 = ⟨0, 0, 0, 0⟩ :=
  ⟨⟨-1, -1, 2, 2, fun _ _ => 255, 255, 0, 0, 0⟩, ⟨2, 1, 4, 1, fun _ _ => 128, 0, 0, 255, 0⟩, by decide, by decide, by decide⟩

end Verif.Props.Compare
