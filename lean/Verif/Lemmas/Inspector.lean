import Verif.Spec.Inspector
import Verif.Lemmas.Analyzer
namespace Verif.Inspector
open Verif.Analyzer (Frame positions lit_iff positions_mem)
open Verif.Spec.Analyzer (channel Visible Before)
open Verif.Spec.Inspector

theorem pixelAt_iff {f : Frame} {x y : Nat} {p : Pixel} : pixelAt f x y = some p ↔ Is f x y p := by
  unfold pixelAt Is channel
  constructor
  · intro h
    split at h
    · cases h
    · split at h
      · cases h
      · rename_i h1 h2
        obtain rfl := Option.some.inj h
        have hlt : ∀ c, c ≤ 3 → f.px[(y * f.w + x) * 4 + c]? = some (f.px.getD ((y * f.w + x) * 4 + c) 0) := by
          intro c hc
          rw [List.getD_eq_getElem?_getD, List.getElem?_eq_getElem (by omega)]; rfl
        exact ⟨by omega, by omega, rfl, rfl, hlt 0 (by omega), hlt 1 (by omega), hlt 2 (by omega), hlt 3 (by omega)⟩
  · rintro ⟨h1, h2, h3, h4, h5, h6, h7, h8⟩
    obtain ⟨h9, -⟩ := List.getElem?_eq_some_iff.1 h8
    have e0 : (y * f.w + x) * 4 + 0 = (y * f.w + x) * 4 := rfl
    rw [e0] at h5
    rw [if_neg (by omega), if_neg (by dsimp only at h9; omega)]
    simp only [List.getD_eq_getElem?_getD]
    rw [h5, h6, h7, h8]
    subst h3 h4
    rfl

theorem pixelAt_back {f : Frame} {x y : Nat} (h : pixelAt f x y = none) (hx : x + 1 < f.w) : pixelAt f (x + 1) y = none := by
  unfold pixelAt at *
  by_cases h1 : x + 1 ≥ f.w ∨ y ≥ f.h
  · rw [if_pos h1]
  · rw [if_neg h1]
    rw [if_neg (by omega)] at h
    split at h
    · rw [if_pos (by omega)]
    · cases h

theorem near_iff (a b : Nat) (t : Nat) : absDiff a b ≤ t ↔ Within t a b := by
  unfold absDiff Within
  split <;> omega

/-! ## A line -/

/-- All segments so far. -/
def allOf (st : List Segment × Option Segment) : List Segment := st.1 ++ st.2.toList

/-- What holds after the first `n` pixels of a line. -/
structure Scanned (f : Frame) (y n : Nat) (st : List Segment × Option Segment) : Prop where
  good : ∀ s ∈ allOf st, Stretch f y s ∧ s.stop < n ∧ ∃ p, s.pixels.head? = some p ∧ s.avg = [p.r, p.g, p.b, p.a]
  sorted : (allOf st).Pairwise (fun a b => a.stop < b.start)
  cover : ∀ x, x < n → ∀ p, Is f x y p → 0 < p.a → ∃ s ∈ allOf st, s.start ≤ x ∧ x ≤ s.stop
  apart : ∀ a ∈ allOf st, ∀ b ∈ allOf st, a.stop + 1 = b.start → ∀ p q, a.pixels.head? = some p → b.pixels.head? = some q → ¬ Near p q
  cur : ∀ s, st.2 = some s → s.stop + 1 = n ∨ ∃ m, n = m + 1 ∧ pixelAt f m y = none
  gap : st.2 = none → ∀ s ∈ st.1, s.stop + 1 < n

theorem similar_iff {f : Frame} {y : Nat} {s : Segment} {p q : Pixel} (hp : s.pixels.head? = some p) (ha : s.avg = [p.r, p.g, p.b, p.a]) :
    similar s q = true ↔ Near p q := by
  unfold similar Near
  rw [if_neg (by intro e; rw [e] at hp; cases hp), ha]
  simp only [Bool.and_eq_true, decide_eq_true_eq]
  rw [← near_iff, ← near_iff, ← near_iff, and_assoc]
  rfl

theorem near_refl (p : Pixel) : Near p p := by unfold Near Within; omega

theorem stretch_new {f : Frame} {x y : Nat} {p : Pixel} (h : Is f x y p) (ha : 0 < p.a) : Stretch f y (newSegment y x p) := by
  refine ⟨rfl, Nat.le_refl _, ?_, ?_, ?_⟩
  · show 1 = x + 1 - x; omega
  · intro i q hq
    match i with
    | 0 => obtain rfl := Option.some.inj hq; exact ⟨h, ha⟩
    | i + 1 => cases hq
  · intro a b h1 h2
    obtain rfl := Option.some.inj h1
    have : b ∈ [p] := h2
    simp only [List.mem_cons, List.not_mem_nil, or_false] at this
    subst this
    exact near_refl _

theorem scan_start {f : Frame} {y n : Nat} {S : List Segment} {p : Pixel} (hg : ∀ s ∈ S, Stretch f y s ∧ s.stop < n ∧ ∃ p, s.pixels.head? = some p ∧ s.avg = [p.r, p.g, p.b, p.a])
    (hs : S.Pairwise (fun a b => a.stop < b.start)) (hc : ∀ x, x < n → ∀ p, Is f x y p → 0 < p.a → ∃ s ∈ S, s.start ≤ x ∧ x ≤ s.stop)
    (ha : ∀ a ∈ S, ∀ b ∈ S, a.stop + 1 = b.start → ∀ p q, a.pixels.head? = some p → b.pixels.head? = some q → ¬ Near p q)
    (hp : Is f n y p) (hpa : 0 < p.a) (hnew : ∀ a ∈ S, a.stop + 1 = n → ∀ q, a.pixels.head? = some q → ¬ Near q p) :
    Scanned f y (n + 1) (S, some (newSegment y n p)) := by
  have hm : ∀ s, s ∈ allOf (S, some (newSegment y n p)) ↔ s ∈ S ∨ s = newSegment y n p := by
    intro s; unfold allOf; simp
  refine ⟨?_, ?_, ?_, ?_, ?_, nofun⟩
  · intro s h
    rcases (hm s).1 h with h | rfl
    · obtain ⟨a, b, c⟩ := hg s h
      exact ⟨a, by omega, c⟩
    · exact ⟨stretch_new hp hpa, Nat.lt_succ_self n, p, rfl, rfl⟩
  · show (S ++ [newSegment y n p]).Pairwise _
    rw [List.pairwise_append]
    refine ⟨hs, by simp, ?_⟩
    intro a h b hb
    simp only [List.mem_cons, List.not_mem_nil, or_false] at hb
    subst hb
    exact (hg a h).2.1
  · intro x hx q hq hqa
    by_cases e : x = n
    · exact ⟨newSegment y n p, (hm _).2 (Or.inr rfl), by show n ≤ x; omega, by show x ≤ n; omega⟩
    · obtain ⟨s, a, b⟩ := hc x (by omega) q hq hqa
      exact ⟨s, (hm _).2 (Or.inl a), b⟩
  · intro a h1 b h2 e u v hu hv
    rcases (hm a).1 h1 with h1 | rfl
    · rcases (hm b).1 h2 with h2 | rfl
      · exact ha a h1 b h2 e u v hu hv
      · obtain rfl := Option.some.inj hv
        exact hnew a h1 e u hu
    · have e : n + 1 = b.start := e
      rcases (hm b).1 h2 with h2 | rfl
      · have := (hg b h2).2.1
        have := (hg b h2).1.2.1
        omega
      · have e : n + 1 = n := e
        omega
  · intro s h
    obtain rfl := Option.some.inj h
    exact Or.inl rfl

theorem scan_step {f : Frame} {y n : Nat} {st : List Segment × Option Segment} (hn : n < f.w) (h : Scanned f y n st) :
    Scanned f y (n + 1) (scanStep f y st n) := by
  unfold scanStep
  cases hp : pixelAt f n y with
  | none =>
    simp only
    refine ⟨fun s hs => ⟨(h.good s hs).1, by have := (h.good s hs).2.1; omega, (h.good s hs).2.2⟩, h.sorted, ?_, h.apart, fun s _ => Or.inr ⟨n, rfl, hp⟩,
      fun e s hs => by have := h.gap e s hs; omega⟩
    intro x hx p his ha
    by_cases e : x = n
    · subst e
      rw [pixelAt_iff.2 his] at hp; cases hp
    · exact h.cover x (by omega) p his ha
  | some p =>
    have his := pixelAt_iff.1 hp
    have hcur : ∀ s, st.2 = some s → s.stop + 1 = n := by
      intro s hs
      rcases h.cur s hs with g | ⟨m, rfl, g⟩
      · exact g
      · rw [pixelAt_back g hn] at hp; cases hp
    simp only
    by_cases ha : p.a > 0
    · rw [if_pos ha]
      unfold scanVisible
      cases hs : st.2 with
      | none =>
        simp only
        have hall : allOf st = st.1 := by unfold allOf; rw [hs]; simp
        have hg := h.good
        have hso := h.sorted
        have hco := h.cover
        have hap := h.apart
        rw [hall] at hg hso hco hap
        refine scan_start hg hso hco hap his ha ?_
        intro a h1 e
        have := h.gap hs a h1
        omega
      | some seg =>
        simp only
        have hall : allOf st = st.1 ++ [seg] := by unfold allOf; rw [hs]; rfl
        obtain ⟨hst, hlt, q, hq, hav⟩ := h.good seg (by rw [hall]; simp)
        have hstop := hcur seg hs
        by_cases hsim : similar seg p = true
        · rw [if_pos hsim]
          have hnear := (similar_iff (f := f) (y := y) hq hav).1 hsim
          have hm : ∀ s, s ∈ allOf (st.1, some ({ seg with stop := n, pixels := seg.pixels ++ [p] } : Segment)) ↔
              s ∈ st.1 ∨ s = { seg with stop := n, pixels := seg.pixels ++ [p] } := by
            intro s; unfold allOf; simp
          have hso := h.sorted
          rw [hall, List.pairwise_append] at hso
          have hbef : ∀ a ∈ st.1, a.stop < seg.start := fun a ha => hso.2.2 a ha seg (by simp)
          have hin : ∀ a ∈ st.1, a ∈ allOf st := fun a ha => by rw [hall]; simp [ha]
          have hhead : (seg.pixels ++ [p]).head? = some q := by rw [List.head?_append, hq]; rfl
          refine ⟨?_, ?_, ?_, ?_, ?_, nofun⟩
          · intro s hs'
            rcases (hm s).1 hs' with g | rfl
            · obtain ⟨a, b, c⟩ := h.good s (hin s g)
              exact ⟨a, by omega, c⟩
            · obtain ⟨k1, k2, k3, k4, k5⟩ := hst
              refine ⟨⟨k1, by show seg.start ≤ n; omega, ?_, ?_, ?_⟩, Nat.lt_succ_self n, q, hhead, hav⟩
              · show (seg.pixels ++ [p]).length = n + 1 - seg.start
                rw [List.length_append, k3]
                show _ + 1 = _
                omega
              · intro i r hr
                have hr : (seg.pixels ++ [p])[i]? = some r := hr
                rw [List.getElem?_append] at hr
                split at hr
                · exact k4 i r hr
                · rename_i hi
                  have hi0 : i - seg.pixels.length = 0 := by
                    rcases Nat.eq_zero_or_pos (i - seg.pixels.length) with e | e
                    · exact e
                    · rw [List.getElem?_eq_none (by simp; omega)] at hr; cases hr
                  rw [hi0] at hr
                  obtain rfl := Option.some.inj hr
                  show Is f (seg.start + i) y p ∧ _
                  have : seg.start + i = n := by omega
                  rw [this]
                  exact ⟨his, ha⟩
              · intro a b h1 h2
                have h1 : (seg.pixels ++ [p]).head? = some a := h1
                rw [hhead] at h1
                obtain rfl := Option.some.inj h1
                have h2 : b ∈ seg.pixels ++ [p] := h2
                rcases List.mem_append.1 h2 with h2 | h2
                · exact k5 q b hq h2
                · simp only [List.mem_cons, List.not_mem_nil, or_false] at h2
                  subst h2; exact hnear
          · show (st.1 ++ [_]).Pairwise _
            rw [List.pairwise_append]
            refine ⟨hso.1, by simp, ?_⟩
            intro a h1 b h2
            simp only [List.mem_cons, List.not_mem_nil, or_false] at h2
            subst h2
            exact hbef a h1
          · intro x hx r hr hra
            by_cases e : x = n
            · exact ⟨_, (hm _).2 (Or.inr rfl), by show seg.start ≤ x; have := hst.2.1; omega, by show x ≤ n; omega⟩
            · obtain ⟨s, h1, h2, h3⟩ := h.cover x (by omega) r hr hra
              rw [hall] at h1
              rcases List.mem_append.1 h1 with h1 | h1
              · exact ⟨s, (hm _).2 (Or.inl h1), h2, h3⟩
              · simp only [List.mem_cons, List.not_mem_nil, or_false] at h1
                subst h1
                exact ⟨_, (hm _).2 (Or.inr rfl), h2, by show x ≤ n; omega⟩
          · intro a h1 b h2 e u v hu hv
            rcases (hm a).1 h1 with h1 | rfl
            · rcases (hm b).1 h2 with h2 | rfl
              · exact h.apart a (hin a h1) b (hin b h2) e u v hu hv
              · have hv : (seg.pixels ++ [p]).head? = some v := hv
                rw [hhead] at hv
                exact h.apart a (hin a h1) seg (by rw [hall]; simp) e u v hu (by rw [hq]; exact hv)
            · have e : n + 1 = b.start := e
              rcases (hm b).1 h2 with h2 | rfl
              · have := hbef b h2
                have := (h.good b (hin b h2)).1.2.1
                have := hst.2.1
                omega
              · have e : n + 1 = seg.start := e
                have := hst.2.1
                omega
          · intro s hs'
            obtain rfl := Option.some.inj hs'
            exact Or.inl rfl
        · rw [if_neg hsim]
          have hg := h.good
          have hso := h.sorted
          have hco := h.cover
          have hap := h.apart
          rw [hall] at hg hso hco hap
          refine scan_start hg hso hco hap his ha ?_
          intro a h1 e u hu
          rcases List.mem_append.1 h1 with h1 | h1
          · rw [List.pairwise_append] at hso
            have := hso.2.2 a h1 seg (by simp)
            have := hst.2.1
            omega
          · simp only [List.mem_cons, List.not_mem_nil, or_false] at h1
            subst h1
            rw [hq] at hu
            obtain rfl := Option.some.inj hu
            exact fun g => hsim ((similar_iff (f := f) (y := y) hq hav).2 g)
    · rw [if_neg ha]
      unfold scanClear
      have hcover : ∀ x, x < n + 1 → ∀ p, Is f x y p → 0 < p.a → ∃ s ∈ allOf st, s.start ≤ x ∧ x ≤ s.stop := by
        intro x hx r hr hra
        by_cases e : x = n
        · subst e
          rw [pixelAt_iff.2 hr] at hp
          obtain rfl := Option.some.inj hp
          exact absurd hra ha
        · exact h.cover x (by omega) r hr hra
      cases hs : st.2 with
      | none =>
        simp only
        exact ⟨fun s hs => ⟨(h.good s hs).1, by have := (h.good s hs).2.1; omega, (h.good s hs).2.2⟩, h.sorted, hcover, h.apart,
          (by intro s e; rw [hs] at e; cases e), fun e s hs => by have := h.gap e s hs; omega⟩
      | some seg =>
        simp only
        have hall : allOf st = st.1 ++ [seg] := by unfold allOf; rw [hs]; rfl
        have e2 : allOf (st.1 ++ [seg], none) = allOf st := by rw [hall]; unfold allOf; simp
        have hstop := hcur seg hs
        have hso := h.sorted
        rw [hall, List.pairwise_append] at hso
        refine ⟨?_, ?_, ?_, ?_, nofun, ?_⟩
        · rw [e2]; exact fun s hs => ⟨(h.good s hs).1, by have := (h.good s hs).2.1; omega, (h.good s hs).2.2⟩
        · rw [e2]; exact h.sorted
        · rw [e2]; exact hcover
        · rw [e2]; exact h.apart
        · intro _ s hs'
          have := (h.good s (by rw [hall]; exact hs')).2.1
          omega

theorem scan_all {f : Frame} {y : Nat} : ∀ n, n ≤ f.w → Scanned f y n ((List.range n).foldl (scanStep f y) ([], none))
  | 0, _ => ⟨nofun, List.Pairwise.nil, nofun, nofun, nofun, nofun⟩
  | n + 1, h => by
    rw [List.range_succ, List.foldl_append]
    exact scan_step (by omega) (scan_all n (by omega))

/-! ## The box -/

/-- What holds after some of the positions. -/
structure Boxed (f : Frame) (done : List (Nat × Nat)) (b : Box) : Prop where
  found : b.found = true ↔ ∃ p ∈ done, Visible f p
  none : b.found = false → b = ⟨f.w, f.h, 0, 0, false⟩
  bound : ∀ p ∈ done, Visible f p → b.minX ≤ p.1 ∧ p.1 ≤ b.maxX ∧ b.minY ≤ p.2 ∧ p.2 ≤ b.maxY
  least : b.found = true → (∃ p ∈ done, Visible f p ∧ p.1 = b.minX) ∧ (∃ p ∈ done, Visible f p ∧ p.1 = b.maxX) ∧
    (∃ p ∈ done, Visible f p ∧ p.2 = b.minY) ∧ (∃ p ∈ done, Visible f p ∧ p.2 = b.maxY)

theorem grow_boxed {f : Frame} {done : List (Nat × Nat)} {b : Box} (h : Boxed f done b) {p : Nat × Nat} (h1 : p.1 < f.w) (h2 : p.2 < f.h) :
    Boxed f (done ++ [p]) (grow f b p) := by
  have hm : ∀ q, q ∈ done ++ [p] ↔ q ∈ done ∨ q = p := by intro q; simp
  unfold grow
  by_cases hl : Analyzer.lit f (p.2 * f.w + p.1) = true
  · rw [if_pos hl]
    have hv : Visible f p := (lit_iff h1 h2).1 hl
    have hp : p ∈ done ++ [p] := by simp
    refine ⟨⟨fun _ => ⟨p, hp, hv⟩, fun _ => rfl⟩, nofun, ?_, ?_⟩
    · intro q hq hqv
      rcases (hm q).1 hq with hq | rfl
      · obtain ⟨a, b, c, d⟩ := h.bound q hq hqv
        dsimp only
        omega
      · dsimp only
        omega
    · intro _
      dsimp only
      cases hf : b.found with
      | true =>
        obtain ⟨⟨q1, a1, b1, c1⟩, ⟨q2, a2, b2, c2⟩, ⟨q3, a3, b3, c3⟩, ⟨q4, a4, b4, c4⟩⟩ := h.least hf
        refine ⟨?_, ?_, ?_, ?_⟩
        · rcases Nat.le_total b.minX p.1 with g | g
          · exact ⟨q1, (hm _).2 (Or.inl a1), b1, by omega⟩
          · exact ⟨p, hp, hv, by omega⟩
        · rcases Nat.le_total b.maxX p.1 with g | g
          · exact ⟨p, hp, hv, by omega⟩
          · exact ⟨q2, (hm _).2 (Or.inl a2), b2, by omega⟩
        · rcases Nat.le_total b.minY p.2 with g | g
          · exact ⟨q3, (hm _).2 (Or.inl a3), b3, by omega⟩
          · exact ⟨p, hp, hv, by omega⟩
        · rcases Nat.le_total b.maxY p.2 with g | g
          · exact ⟨p, hp, hv, by omega⟩
          · exact ⟨q4, (hm _).2 (Or.inl a4), b4, by omega⟩
      | false =>
        rw [h.none hf]
        exact ⟨⟨p, hp, hv, by dsimp only; omega⟩, ⟨p, hp, hv, by dsimp only; omega⟩, ⟨p, hp, hv, by dsimp only; omega⟩, ⟨p, hp, hv, by dsimp only; omega⟩⟩
  · rw [if_neg hl]
    have hv : ¬ Visible f p := fun g => hl ((lit_iff h1 h2).2 g)
    refine ⟨?_, h.none, ?_, ?_⟩
    · rw [h.found]
      constructor
      · rintro ⟨q, a, b⟩; exact ⟨q, (hm _).2 (Or.inl a), b⟩
      · rintro ⟨q, a, b⟩
        rcases (hm q).1 a with a | rfl
        · exact ⟨q, a, b⟩
        · exact absurd b hv
    · intro q hq hqv
      rcases (hm q).1 hq with hq | rfl
      · exact h.bound q hq hqv
      · exact absurd hqv hv
    · intro hf
      obtain ⟨⟨q1, a1, b1⟩, ⟨q2, a2, b2⟩, ⟨q3, a3, b3⟩, ⟨q4, a4, b4⟩⟩ := h.least hf
      exact ⟨⟨q1, (hm _).2 (Or.inl a1), b1⟩, ⟨q2, (hm _).2 (Or.inl a2), b2⟩, ⟨q3, (hm _).2 (Or.inl a3), b3⟩, ⟨q4, (hm _).2 (Or.inl a4), b4⟩⟩

theorem fold_boxed {f : Frame} : ∀ (l done : List (Nat × Nat)) (b : Box), Boxed f done b → (∀ p ∈ l, p.1 < f.w ∧ p.2 < f.h) →
    Boxed f (done ++ l) (l.foldl (grow f) b)
  | [], done, b, h, _ => by simpa using h
  | p :: l, done, b, h, hl => by
    obtain ⟨h1, h2⟩ := hl p (by simp)
    have := fold_boxed l (done ++ [p]) (grow f b p) (grow_boxed h h1 h2) (fun q hq => hl q (by simp [hq]))
    simpa using this

/-! ## A region -/

theorem fold_colours : ∀ (l : List Pixel) (c : Colours), c.unique.Nodup →
    (l.foldl addPixel c).red = c.red + (l.map (·.r)).sum ∧ (l.foldl addPixel c).green = c.green + (l.map (·.g)).sum ∧
    (l.foldl addPixel c).blue = c.blue + (l.map (·.b)).sum ∧ (l.foldl addPixel c).alpha = c.alpha + (l.map (·.a)).sum ∧
    (l.foldl addPixel c).count = c.count + l.length ∧ (l.foldl addPixel c).unique.Nodup ∧
    ∀ k, k ∈ (l.foldl addPixel c).unique ↔ k ∈ c.unique ∨ ∃ p ∈ l, k = (p.r, p.g, p.b, p.a)
  | [], c, h => by simp [h]
  | p :: l, c, h => by
    rw [List.foldl_cons]
    have hn : (addPixel c p).unique.Nodup := by
      unfold addPixel
      simp only
      split
      · exact h
      · rename_i hm
        rw [List.nodup_append]
        refine ⟨h, by simp, ?_⟩
        intro a ha b hb e
        simp only [List.mem_cons, List.not_mem_nil, or_false] at hb
        subst e hb
        exact hm ha
    obtain ⟨h1, h2, h3, h4, h5, h6, h7⟩ := fold_colours l (addPixel c p) hn
    refine ⟨by rw [h1]; simp only [addPixel, List.map_cons, List.sum_cons]; omega, by rw [h2]; simp only [addPixel, List.map_cons, List.sum_cons]; omega,
      by rw [h3]; simp only [addPixel, List.map_cons, List.sum_cons]; omega, by rw [h4]; simp only [addPixel, List.map_cons, List.sum_cons]; omega,
      by rw [h5]; simp only [addPixel, List.length_cons]; omega, h6, ?_⟩
    intro k
    rw [h7]
    have hk : k ∈ (addPixel c p).unique ↔ k ∈ c.unique ∨ k = (p.r, p.g, p.b, p.a) := by
      unfold addPixel
      simp only
      split
      · rename_i hm
        constructor
        · intro g; exact Or.inl g
        · rintro (g | rfl)
          · exact g
          · exact hm
      · simp
    rw [hk]
    simp only [List.mem_cons]
    constructor
    · rintro ((g | g) | ⟨q, a, b⟩)
      · exact Or.inl g
      · exact Or.inr ⟨p, Or.inl rfl, g⟩
      · exact Or.inr ⟨q, Or.inr a, b⟩
    · rintro (g | ⟨q, rfl | a, b⟩)
      · exact Or.inl (Or.inl g)
      · exact Or.inl (Or.inr b)
      · exact Or.inr ⟨q, a, b⟩

theorem region_mem {f : Frame} {x y a b : Nat} (p : Pixel) :
    p ∈ regionPixels f x y a b ↔ Is f p.x p.y p ∧ x ≤ p.x ∧ p.x < a ∧ y ≤ p.y ∧ p.y < b := by
  unfold regionPixels
  simp only [List.mem_flatMap, List.mem_filterMap, List.mem_range'_1]
  constructor
  · rintro ⟨v, h1, u, h2, h3⟩
    have his := pixelAt_iff.1 h3
    have hx := his.2.2.1
    have hy := his.2.2.2.1
    rw [hx, hy]
    exact ⟨his, by omega, by omega, by omega, by omega⟩
  · rintro ⟨h1, h2, h3, h4, h5⟩
    exact ⟨p.y, by omega, p.x, by omega, pixelAt_iff.2 h1⟩

theorem region_sorted {f : Frame} {x y a b : Nat} : (regionPixels f x y a b).Pairwise (fun p q => Before (p.x, p.y) (q.x, q.y)) := by
  unfold regionPixels
  rw [List.pairwise_flatMap]
  constructor
  · intro v _
    rw [List.pairwise_filterMap]
    refine List.Pairwise.imp ?_ List.pairwise_lt_range'
    intro u u' h p hp q hq
    have h1 := pixelAt_iff.1 hp
    have h2 := pixelAt_iff.1 hq
    have := h1.2.2.1
    have := h1.2.2.2.1
    have := h2.2.2.1
    have := h2.2.2.2.1
    unfold Before
    dsimp only
    omega
  · refine List.Pairwise.imp ?_ List.pairwise_lt_range'
    intro v v' h p hp q hq
    obtain ⟨u, -, hp⟩ := List.mem_filterMap.1 hp
    obtain ⟨u', -, hq⟩ := List.mem_filterMap.1 hq
    have h1 := pixelAt_iff.1 hp
    have h2 := pixelAt_iff.1 hq
    have := h1.2.2.2.1
    have := h2.2.2.2.1
    unfold Before
    dsimp only
    omega

/-! ## The cursor -/

theorem shift_spec {c size : Nat} {d : Int} (hs : 0 < size) (hs2 : size < 2 ^ 31) (hc : c < size) (hd : -2 ^ 31 ≤ (c : Int) + d) (hd2 : (c : Int) + d < 2 ^ 31) :
    ∃ n, shift c size d = some n ∧ (n : Int) = min (max ((c : Int) + d) 0) ((size : Int) - 1) := by
  have e1 : toI32 c = c := by unfold toI32; rw [if_pos (by omega)]
  have e2 : toI32 size = size := by unfold toI32; rw [if_pos hs2]
  unfold shift
  rw [e1, e2, if_pos ⟨hd, hd2, by omega⟩]
  refine ⟨_, rfl, ?_⟩
  unfold toU32
  rw [Int.emod_eq_of_lt (by omega) (by omega)]
  omega

theorem shift_in {c size n : Nat} {d : Int} (hs : 0 < size) (hs2 : size < 2 ^ 31) (h : shift c size d = some n) : n < size := by
  have e2 : toI32 size = size := by unfold toI32; rw [if_pos hs2]
  unfold shift at h
  rw [e2] at h
  split at h
  · obtain rfl := Option.some.inj h
    unfold toU32
    rw [Int.emod_eq_of_lt (by omega) (by omega)]
    omega
  · cases h

end Verif.Inspector
