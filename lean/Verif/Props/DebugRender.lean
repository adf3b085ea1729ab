import Verif.Spec.DebugRender
import Verif.Lemmas.Animation
/-!
# C150 — the debug renderer and the colour diagnostic
-/
namespace Verif.Props.DebugRender
open Verif Verif.Parser Verif.Ast Verif.DebugRender Verif.Spec Verif.Spec.DebugRender

/-! ## The loop over the pixels -/

/-- The pixel's opacity byte is there and not zero. -/
def lit (f : Frame) (c : Nat × Nat) : Bool := match f.bytes[(c.2 * f.w + c.1) * 4 + 3]? with | some a => decide (a > 0) | none => false

/-- One more pixel. -/
def grow (s : Acc) (c : Nat × Nat) : Acc :=
  ⟨s.count + 1, ⟨min s.box.minX c.1, min s.box.minY c.2, max s.box.maxX c.1, max s.box.maxY c.2⟩⟩

theorem step_eq (f : Frame) (s : Acc) (c : Nat × Nat) :
    step f s c.1 c.2 = if (c.2 * f.w + c.1) * 4 ≥ 4294967296 then none else some (if lit f c then grow s c else s) := by
  unfold step lit grow
  dsimp only
  split
  · rfl
  · cases f.bytes[(c.2 * f.w + c.1) * 4 + 3]? with
    | none => rfl
    | some a => by_cases h : a > 0 <;> simp [h]

theorem scan_eq (f : Frame) (L : List (Nat × Nat)) : ∀ s,
    scan f L s = if ∃ c ∈ L, (c.2 * f.w + c.1) * 4 ≥ 4294967296 then none else some ((L.filter (lit f)).foldl grow s) := by
  induction L with
  | nil => intro s; simp [scan]
  | cons c L ih =>
    intro s
    rw [scan, step_eq]
    by_cases h : (c.2 * f.w + c.1) * 4 ≥ 4294967296
    · rw [if_pos h, if_pos ⟨c, List.mem_cons_self, h⟩]
    · rw [if_neg h]
      dsimp only
      rw [ih]
      by_cases h' : ∃ c ∈ L, (c.2 * f.w + c.1) * 4 ≥ 4294967296
      · obtain ⟨d, hd, hd'⟩ := h'
        rw [if_pos ⟨d, hd, hd'⟩, if_pos ⟨d, List.mem_cons_of_mem _ hd, hd'⟩]
      · rw [if_neg h', if_neg (show ¬ ∃ d ∈ c :: L, (d.2 * f.w + d.1) * 4 ≥ 4294967296 from ?_)]
        · cases hl : lit f c
          · rw [List.filter_cons_of_neg (by simp [hl])]; rfl
          · rw [List.filter_cons_of_pos hl]; rfl
        · rintro ⟨d, hd, hd'⟩
          rcases List.mem_cons.1 hd with rfl | hd
          · exact h hd'
          · exact h' ⟨d, hd, hd'⟩

theorem mem_visited {f : Frame} {c : Nat × Nat} : c ∈ visited f ↔ c.1 < f.w ∧ c.2 < f.h := by
  unfold visited
  simp only [List.mem_flatMap, List.mem_map, List.mem_range]
  constructor
  · rintro ⟨y, hy, x, hx, rfl⟩
    exact ⟨hx, hy⟩
  · rintro ⟨h1, h2⟩
    exact ⟨c.2, h2, c.1, h1, rfl⟩

theorem visited_nodup (f : Frame) : (visited f).Nodup := by
  unfold visited List.Nodup
  rw [List.pairwise_flatMap]
  constructor
  · intro y _
    rw [List.pairwise_map]
    exact List.pairwise_lt_range.imp fun h e => by injection e with e _; omega
  · refine List.pairwise_lt_range.imp ?_
    intro y z h c hc d hd e
    obtain ⟨_, _, rfl⟩ := List.mem_map.1 hc
    obtain ⟨_, _, rfl⟩ := List.mem_map.1 hd
    injection e with _ e
    omega

theorem index_eq (w x y : Nat) : (y * w + x) * 4 = 4 * (w * y + x) := by rw [Nat.mul_comm, Nat.mul_comm y w]

theorem visible_iff {f : Frame} {c : Nat × Nat} : c ∈ (visited f).filter (lit f) ↔ Visible f c.1 c.2 := by
  rw [List.mem_filter, mem_visited]
  unfold Visible lit
  rw [index_eq]
  cases f.bytes[4 * (f.w * c.2 + c.1) + 3]? with
  | none => simp
  | some a =>
    simp only [decide_eq_true_eq, Option.some.injEq, exists_eq_left', and_assoc]
    constructor <;> rintro ⟨h1, h2, h3⟩ <;> exact ⟨h1, h2, by omega⟩

theorem grow_count (L : List (Nat × Nat)) : ∀ s, (L.foldl grow s).count = s.count + L.length := by
  induction L with
  | nil => intro s; rfl
  | cons c L ih => intro s; rw [List.foldl_cons, ih]; simp only [grow, List.length_cons]; omega

theorem pick_min {b s c : Nat} (h : b = min s c) : b = s ∨ c = b := by omega
theorem pick_max {b s c : Nat} (h : b = max s c) : b = s ∨ c = b := by omega

theorem grow_box (L : List (Nat × Nat)) : ∀ s,
    let b := (L.foldl grow s).box
    (b.minX ≤ s.box.minX ∧ b.minY ≤ s.box.minY ∧ s.box.maxX ≤ b.maxX ∧ s.box.maxY ≤ b.maxY) ∧
    (∀ c ∈ L, b.minX ≤ c.1 ∧ c.1 ≤ b.maxX ∧ b.minY ≤ c.2 ∧ c.2 ≤ b.maxY) ∧
    (b.minX = s.box.minX ∨ ∃ c ∈ L, c.1 = b.minX) ∧ (b.maxX = s.box.maxX ∨ ∃ c ∈ L, c.1 = b.maxX) ∧
    (b.minY = s.box.minY ∨ ∃ c ∈ L, c.2 = b.minY) ∧ (b.maxY = s.box.maxY ∨ ∃ c ∈ L, c.2 = b.maxY) := by
  induction L with
  | nil => intro s; simp
  | cons c L ih =>
    intro s
    have hg := ih (grow s c)
    simp only [List.foldl_cons]
    dsimp only at hg
    generalize (L.foldl grow (grow s c)).box = b at hg ⊢
    rw [show (grow s c).box.minX = min s.box.minX c.1 from rfl, show (grow s c).box.minY = min s.box.minY c.2 from rfl,
      show (grow s c).box.maxX = max s.box.maxX c.1 from rfl, show (grow s c).box.maxY = max s.box.maxY c.2 from rfl] at hg
    obtain ⟨⟨a1, a2, a3, a4⟩, h2, h3, h4, h5, h6⟩ := hg
    obtain ⟨a1, a1'⟩ := Nat.le_min.1 a1
    obtain ⟨a2, a2'⟩ := Nat.le_min.1 a2
    obtain ⟨a3, a3'⟩ := Nat.max_le.1 a3
    obtain ⟨a4, a4'⟩ := Nat.max_le.1 a4
    refine ⟨⟨a1, a2, a3, a4⟩, ?_, ?_, ?_, ?_, ?_⟩
    · intro d hd
      rcases List.mem_cons.1 hd with rfl | hd
      · exact ⟨a1', a3', a2', a4'⟩
      · exact h2 d hd
    · rcases h3 with h | ⟨d, hd, h⟩
      · rcases pick_min h with k | k
        · exact Or.inl k
        · exact Or.inr ⟨c, List.mem_cons_self, k⟩
      · exact Or.inr ⟨d, List.mem_cons_of_mem _ hd, h⟩
    · rcases h4 with h | ⟨d, hd, h⟩
      · rcases pick_max h with k | k
        · exact Or.inl k
        · exact Or.inr ⟨c, List.mem_cons_self, k⟩
      · exact Or.inr ⟨d, List.mem_cons_of_mem _ hd, h⟩
    · rcases h5 with h | ⟨d, hd, h⟩
      · rcases pick_min h with k | k
        · exact Or.inl k
        · exact Or.inr ⟨c, List.mem_cons_self, k⟩
      · exact Or.inr ⟨d, List.mem_cons_of_mem _ hd, h⟩
    · rcases h6 with h | ⟨d, hd, h⟩
      · rcases pick_max h with k | k
        · exact Or.inl k
        · exact Or.inr ⟨c, List.mem_cons_self, k⟩
      · exact Or.inr ⟨d, List.mem_cons_of_mem _ hd, h⟩

theorem overflow_iff {f : Frame} : (∃ c ∈ visited f, (c.2 * f.w + c.1) * 4 ≥ 4294967296) ↔ Huge f := by
  unfold Huge
  constructor
  · rintro ⟨c, hc, h⟩
    rw [index_eq] at h
    exact ⟨c.1, c.2, (mem_visited.1 hc).1, (mem_visited.1 hc).2, h⟩
  · rintro ⟨x, y, hx, hy, h⟩
    exact ⟨(x, y), mem_visited.2 ⟨hx, hy⟩, by rw [index_eq]; exact h⟩

theorem collect_cases (hash : List Nat → Nat) (f : Frame) (t : Nat) (e : Rat) :
    (Huge f ∧ collect hash f t e = none) ∨
    (¬ Huge f ∧ ∃ i, collect hash f t e = some i ∧ i.timestamp = t ∧ i.elapsed = e ∧ Describes hash f i) := by
  unfold collect
  rw [scan_eq]
  by_cases h : Huge f
  · rw [if_pos (overflow_iff.2 h)]
    exact Or.inl ⟨h, rfl⟩
  · rw [if_neg (fun k => h (overflow_iff.1 k))]
    refine Or.inr ⟨h, _, rfl, rfl, rfl, rfl, rfl, ⟨(visited f).filter (lit f), (visited_nodup f).filter _, fun c => visible_iff, ?_⟩, ?_⟩
    · dsimp only
      rw [grow_count]; simp
    · dsimp only
      have hb := grow_box ((visited f).filter (lit f)) ⟨0, ⟨f.w, f.h, 0, 0⟩⟩
      have hc := grow_count ((visited f).filter (lit f)) ⟨0, ⟨f.w, f.h, 0, 0⟩⟩
      cases hL : (visited f).filter (lit f) with
      | nil =>
        simp only [List.foldl_nil, Nat.lt_irrefl, if_false, gt_iff_lt]
        intro x y hv
        have := visible_iff.2 (show Visible f (x, y).1 (x, y).2 from hv)
        rw [hL] at this
        exact absurd this (by simp)
      | cons c0 L0 =>
        rw [← hL]
        have hpos : (((visited f).filter (lit f)).foldl grow ⟨0, ⟨f.w, f.h, 0, 0⟩⟩).count > 0 := by
          rw [hc, hL]; simp
        rw [if_pos hpos]
        dsimp only
        obtain ⟨_, h2, h3, h4, h5, h6⟩ := hb
        have m0 : c0 ∈ (visited f).filter (lit f) := by rw [hL]; simp
        have b0 := h2 c0 m0
        have v0 := visible_iff.1 m0
        refine ⟨fun x y hv => h2 (x, y) (visible_iff.2 hv), ?_, ?_, ?_, ?_⟩
        · rcases h3 with h | ⟨c, hc, h⟩
          · have := v0.1; dsimp only at h; omega
          · exact ⟨c.2, h ▸ visible_iff.1 hc⟩
        · rcases h4 with h | ⟨c, hc, h⟩
          · dsimp only at h
            exact ⟨c0.2, by rw [h, show 0 = c0.1 by omega]; exact v0⟩
          · exact ⟨c.2, h ▸ visible_iff.1 hc⟩
        · rcases h5 with h | ⟨c, hc, h⟩
          · have := v0.2.1; dsimp only at h; omega
          · exact ⟨c.1, h ▸ visible_iff.1 hc⟩
        · rcases h6 with h | ⟨c, hc, h⟩
          · dsimp only at h
            exact ⟨c0.1, by rw [h, show 0 = c0.2 by omega]; exact v0⟩
          · exact ⟨c.1, h ▸ visible_iff.1 hc⟩

/-! ## Frames -/

/-- A frame that is drawn is returned as it is, with a report that describes it: the number of its visible pixels, the
smallest box around them, the number of its bytes and their checksum, the time asked for and the time it took; the report is
the last of the history.  Partial: the frame must not be too large (see `C150_huge`). -/
theorem C150_report_partial {σ : Type} (w : World σ) (d : Dbg σ) (t : Nat) (f : Frame) (s : σ) (hd : w.draw d.inner t = (some f, s))
    (hf : ¬ Huge f) (hs : d.saves = false) :
    ∃ i, render w d t = (.ok (f, i), ⟨s, d.history ++ [i], false⟩) ∧ i.timestamp = t ∧ i.elapsed = w.elapsed d.inner t ∧
      Describes w.hash f i := by
  rcases collect_cases w.hash f t (w.elapsed d.inner t) with ⟨h, _⟩ | ⟨_, i, hi, h1, h2, h3⟩
  · exact absurd h hf
  · refine ⟨i, ?_, h1, h2, h3⟩
    unfold render
    rw [hd]
    dsimp only
    rw [hi]
    dsimp only
    rw [hs]
    rfl

/-- A frame of two by two pixels, the lower left and the lower right of which can be seen. -/
def sample : Frame := ⟨2, 2, [9, 9, 9, 0, 9, 9, 9, 0, 1, 2, 3, 255, 0, 0, 0, 1]⟩

example : collect List.sum sample 40 2 = some ⟨40, 0, 2, 16, 0, 316, 2, some ⟨0, 1, 1, 1⟩⟩ := by decide +kernel

example : ¬ Huge sample := by
  rintro ⟨x, y, hx, hy, h⟩
  simp only [sample] at hx hy h
  have : 2 * y ≤ 2 := by omega
  omega

/-- A frame that is too large ends the program, at once for every renderer and every history. -/
theorem C150_huge {σ : Type} (w : World σ) (d : Dbg σ) (t : Nat) (f : Frame) (s : σ) (hd : w.draw d.inner t = (some f, s)) :
    (render w d t).1 = .panic ↔ Huge f := by
  unfold render
  rw [hd]
  dsimp only
  rcases collect_cases w.hash f t (w.elapsed d.inner t) with ⟨h, hc⟩ | ⟨h, i, hi, _⟩
  · rw [hc]; exact ⟨fun _ => h, fun _ => rfl⟩
  · rw [hi]
    dsimp only
    constructor
    · intro e
      split at e
      · split at e <;> exact absurd e (by simp)
      · exact absurd e (by simp)
    · exact fun k => absurd k h

example : Huge ⟨32768, 32769, []⟩ := ⟨0, 32768, by decide, by decide, by decide⟩

/-- If the renderer fails the call fails, and the history stays; if the file cannot be written the call fails as well, but the
report is in the history. -/
theorem C150_failure {σ : Type} (w : World σ) (d : Dbg σ) (t : Nat) (h : (render w d t).1 = .err) :
    ((w.draw d.inner t).1 = none ∧ (render w d t).2.history = d.history) ∨
    (d.saves = true ∧ ∃ f i, (w.draw d.inner t).1 = some f ∧ Describes w.hash f i ∧ w.save f i = false ∧
      (render w d t).2.history = d.history ++ [i]) := by
  unfold render at h ⊢
  rcases hd : w.draw d.inner t with ⟨_ | f, s⟩
  · left; exact ⟨rfl, rfl⟩
  · rw [hd] at h
    dsimp only at h ⊢
    rcases collect_cases w.hash f t (w.elapsed d.inner t) with ⟨hh, hc⟩ | ⟨hh, i, hi, _, _, hD⟩
    · rw [hc] at h; exact absurd h (by simp)
    · rw [hi] at h
      simp only [hi]
      dsimp only at h
      cases hs : d.saves
      · rw [hs] at h; exact absurd h (by simp)
      · rw [hs] at h
        cases hv : w.save f i
        · exact Or.inr ⟨rfl, f, i, rfl, hD, hv, by simp⟩
        · rw [hv] at h; exact absurd h (by simp)

/-! ## The history -/

theorem step_history {σ : Type} (w : World σ) (d : Dbg σ) (op : Op) :
    (act w d op).history =
      match (generalizing := false) op with
      | .clear => []
      | .saveTo => d.history
      | .render t =>
        match (generalizing := false) (w.draw d.inner t).1 with
        | none => d.history
        | some f => d.history ++ (collect w.hash f t (w.elapsed d.inner t)).toList := by
  cases op with
  | clear => rfl
  | saveTo => rfl
  | render t =>
    show (render w d t).2.history = _
    unfold render
    dsimp only
    rcases hd : w.draw d.inner t with ⟨_ | f, s⟩
    · rfl
    · dsimp only
      cases hc : collect w.hash f t (w.elapsed d.inner t) with
      | none => simp
      | some i =>
        dsimp only
        split
        · split <;> rfl
        · rfl

/-- The history after one call: emptied by clearing, longer by one report that describes the frame drawn for this time, or the
same if the renderer fails. -/
theorem C150_step {σ : Type} (w : World σ) (d : Dbg σ) :
    (act w d .clear).history = [] ∧ (act w d .saveTo).history = d.history ∧
    ∀ t, ((w.draw d.inner t).1 = none → (act w d (.render t)).history = d.history) ∧
      ∀ f, (w.draw d.inner t).1 = some f → ¬ Huge f →
        ∃ i, (act w d (.render t)).history = d.history ++ [i] ∧ i.timestamp = t ∧ Describes w.hash f i := by
  refine ⟨rfl, rfl, fun t => ⟨fun h => ?_, fun f h hh => ?_⟩⟩
  · rw [step_history]; dsimp only; rw [h]
  · rw [step_history]; dsimp only; rw [h]
    rcases collect_cases w.hash f t (w.elapsed d.inner t) with ⟨k, _⟩ | ⟨_, j, hj, h1, _, h3⟩
    · exact absurd k hh
    · exact ⟨j, by dsimp only; rw [hj]; rfl, h1, h3⟩

/-- Every report in the history, after any calls whatever, describes a frame that the renderer drew for the time it bears. -/
theorem C150_history {σ : Type} (w : World σ) (d : Dbg σ) (ops : List Op)
    (h0 : ∀ i ∈ d.history, ∃ s f, (w.draw s i.timestamp).1 = some f ∧ Describes w.hash f i) :
    ∀ i ∈ (ops.foldl (act w) d).history, ∃ s f, (w.draw s i.timestamp).1 = some f ∧ Describes w.hash f i := by
  induction ops generalizing d with
  | nil => exact h0
  | cons op ops ih =>
    rw [List.foldl_cons]
    apply ih
    rw [step_history]
    cases op with
    | clear => simp
    | saveTo => exact h0
    | render t =>
      dsimp only
      cases hf : (w.draw d.inner t).1 with
      | none => exact h0
      | some f =>
        intro i hi
        rcases List.mem_append.1 hi with hi | hi
        · exact h0 i hi
        · rcases collect_cases w.hash f t (w.elapsed d.inner t) with ⟨_, hc⟩ | ⟨_, j, hj, h1, _, h3⟩
          · rw [hc] at hi; exact absurd hi (by simp)
          · rw [hj] at hi
            simp only [Option.toList_some, List.mem_singleton] at hi
            subst hi
            exact ⟨d.inner, f, h1 ▸ hf, h3⟩

/-- The times of the reports in the history are, in this order, those of the frames that were drawn since the history was last
cleared, for a renderer that never fails and frames of reasonable size. -/
theorem C150_times {σ : Type} (w : World σ) (hok : ∀ s t, ∃ f, (w.draw s t).1 = some f ∧ ¬ Huge f) (d : Dbg σ)
    (before : List Op) (times : List Nat) :
    ((before ++ Op.clear :: times.map Op.render).foldl (act w) d).history.map (·.timestamp) = times := by
  rw [List.foldl_append, List.foldl_cons]
  suffices h : ∀ (ts : List Nat) (d : Dbg σ), ((ts.map Op.render).foldl (act w) d).history.map (·.timestamp) = d.history.map (·.timestamp) ++ ts by
    rw [h]; rfl
  intro ts
  induction ts with
  | nil => intro d; simp
  | cons t ts ih =>
    intro d
    rw [List.map_cons, List.foldl_cons, ih, step_history]
    obtain ⟨f, hf, hh⟩ := hok d.inner t
    dsimp only
    rw [hf]
    rcases collect_cases w.hash f t (w.elapsed d.inner t) with ⟨k, _⟩ | ⟨_, j, hj, h1, _, h3⟩
    · exact absurd k hh
    · dsimp only
      rw [hj]
      simp [h1]

/-- A renderer that always draws the sample. -/
def fixed : World Unit := ⟨fun _ _ => (some sample, ()), List.sum, fun _ _ => 1, fun _ _ => true⟩

example : (([Op.render 3, .clear, .render 5, .saveTo, .render 9]).foldl (act fixed) ⟨(), [], false⟩).history.map (·.timestamp) = [5, 9] := by
  decide +kernel

/-! ## Comparing two reports -/

/-- Two reports of the history are compared if and only if both exist: whether their checksums agree, by how many the numbers
of visible pixels differ, the difference of the times they took, and whether the boxes differ. -/
theorem C150_compare {σ : Type} (d : Dbg σ) (i j : Nat) (c : Comparison) :
    compareFrames d i j = some c ↔
      ∃ a b, d.history[i]? = some a ∧ d.history[j]? = some b ∧ (c.sameChecksum = true ↔ a.checksum = b.checksum) ∧
        c.pixelDiff = max a.count b.count - min a.count b.count ∧ c.timeDiff = a.elapsed - b.elapsed ∧
        (c.boxChanged = true ↔ a.box ≠ b.box) := by
  unfold compareFrames
  cases ha : d.history[i]? with
  | none => simp
  | some a =>
    cases hb : d.history[j]? with
    | none => simp
    | some b =>
      simp only [Option.some.injEq, exists_and_left, exists_eq_left']
      constructor
      · rintro rfl
        exact ⟨by simp, by dsimp only; omega, rfl, by simp⟩
      · rintro ⟨h1, h2, h3, h4⟩
        cases c with
        | mk s p t x =>
          dsimp only at h1 h2 h3 h4
          subst h3
          congr 1
          · rw [Bool.eq_iff_iff, h1, beq_iff_eq]
          · omega
          · rw [Bool.eq_iff_iff, h4, bne_iff_ne]

example : compareFrames (σ := Unit) ⟨(), [⟨1, 0, 3, 4, 0, 7, 9, none⟩, ⟨2, 0, 1, 4, 0, 7, 12, some ⟨0, 0, 1, 1⟩⟩], false⟩ 0 1 =
    some ⟨true, 3, 2, true⟩ := by decide +kernel

/-- A frame compared with itself shows no difference. -/
theorem C150_itself {σ : Type} (d : Dbg σ) (i : Nat) (hi : i < d.history.length) :
    compareFrames d i i = some ⟨true, 0, 0, false⟩ := by
  rw [C150_compare]
  obtain ⟨a, ha⟩ : ∃ a, d.history[i]? = some a := ⟨_, List.getElem?_eq_getElem hi⟩
  exact ⟨a, a, ha, ha, by simp, by simp, by grind, by simp⟩

example : (0 : Nat) < (⟨(), [⟨1, 0, 3, 4, 0, 7, 9, none⟩], false⟩ : Dbg Unit).history.length := by decide

/-- Frames of different shapes with the same bytes are not told apart: a frame of two pixels side by side, and one of two
pixels on top of each other. -/
theorem C150_shape_violated : ∃ f g : Frame, f.w ≠ g.w ∧ f.h ≠ g.h ∧ f.bytes.length = 4 * (f.w * f.h) ∧ g.bytes.length = 4 * (g.w * g.h) ∧
    ∀ (hash : List Nat → Nat) (i j : Info), collect hash f 0 0 = some i → collect hash g 0 0 = some j →
      compareFrames (σ := Unit) ⟨(), [i, j], false⟩ 0 1 = some ⟨true, 0, 0, false⟩ := by
  refine ⟨⟨2, 1, [0, 0, 0, 0, 0, 0, 0, 0]⟩, ⟨1, 2, [0, 0, 0, 0, 0, 0, 0, 0]⟩, by decide, by decide, by decide, by decide, ?_⟩
  intro hash i j hi hj
  have e1 : scan ⟨2, 1, [0, 0, 0, 0, 0, 0, 0, 0]⟩ (visited ⟨2, 1, [0, 0, 0, 0, 0, 0, 0, 0]⟩) ⟨0, ⟨2, 1, 0, 0⟩⟩ = some ⟨0, ⟨2, 1, 0, 0⟩⟩ := by decide
  have e2 : scan ⟨1, 2, [0, 0, 0, 0, 0, 0, 0, 0]⟩ (visited ⟨1, 2, [0, 0, 0, 0, 0, 0, 0, 0]⟩) ⟨0, ⟨1, 2, 0, 0⟩⟩ = some ⟨0, ⟨1, 2, 0, 0⟩⟩ := by decide
  simp only [collect, e1, Option.some.injEq] at hi
  simp only [collect, e2, Option.some.injEq] at hj
  subst hi hj
  rw [C150_compare]
  exact ⟨_, _, rfl, rfl, by simp, by simp, by grind, by simp⟩

/-- The time, called milliseconds here, is given to a renderer that counts hundredths of a second: for an event from five to
ten seconds the report for five seconds (5000 ms) says that nothing can be seen, although the renderer draws the event at that
time (500 hundredths). -/
theorem C150_time_violated : ∃ (w : World Unit) (drawn : Frame),
    -- the renderer draws the frame from 5 s up to 10 s
    (∀ cs, (w.draw () cs).1 = some (if 500 ≤ cs ∧ cs < 1000 then drawn else ⟨1, 1, [0, 0, 0, 0]⟩)) ∧ Visible drawn 0 0 ∧
    ∃ f i d, render w ⟨(), [], false⟩ 5000 = (.ok (f, i), d) ∧ i.timestamp = 5000 ∧ i.count = 0 ∧ i.box = none := by
  refine ⟨⟨fun _ cs => (some (if 500 ≤ cs ∧ cs < 1000 then ⟨1, 1, [9, 9, 9, 255]⟩ else ⟨1, 1, [0, 0, 0, 0]⟩), ()), List.sum, fun _ _ => 0, fun _ _ => true⟩,
    ⟨1, 1, [9, 9, 9, 255]⟩, fun _ => rfl, ⟨by decide, by decide, 255, by decide, by decide⟩, ⟨1, 1, [0, 0, 0, 0]⟩,
    ⟨5000, 0, 0, 4, 0, 0, 0, none⟩, ⟨(), [⟨5000, 0, 0, 4, 0, 0, 0, none⟩], false⟩, ?_, rfl, rfl, rfl⟩
  have e : collect List.sum ⟨1, 1, [0, 0, 0, 0]⟩ 5000 0 = some ⟨5000, 0, 0, 4, 0, 0, 0, none⟩ := by decide +kernel
  unfold render
  simp only [show ¬ (500 ≤ 5000 ∧ 5000 < 1000) by omega, if_false]
  rw [e]
  rfl

/-- The number of active events in a report is always zero, whatever was drawn. -/
theorem C150_active_violated (hash : List Nat → Nat) (f : Frame) (t : Nat) (e : Rat) (i : Info) (h : collect hash f t e = some i) :
    i.active = 0 ∧ i.hits = 0 := by
  unfold collect at h
  split at h
  · exact absurd h (by simp)
  · injection h with h
    subst h
    exact ⟨rfl, rfl⟩

example : collect List.sum sample 40 2 = some ⟨40, 0, 2, 16, 0, 316, 2, some ⟨0, 1, 1, 1⟩⟩ := by decide +kernel

/-! ## Colours -/

theorem named_iff {r g b : Nat} {n : Str} : Named r g b n ↔ colorName r g b = n := by
  unfold Named
  have hm : ∀ m, ((r, g, b), m) ∈ names ↔ colorName r g b = m ∧ m ≠ "CUSTOM".toList := by
    intro m
    unfold colorName names
    constructor
    · intro h
      simp only [List.mem_cons, Prod.mk.injEq, List.not_mem_nil, or_false] at h
      rcases h with ⟨⟨rfl, rfl, rfl⟩, rfl⟩ | ⟨⟨rfl, rfl, rfl⟩, rfl⟩ | ⟨⟨rfl, rfl, rfl⟩, rfl⟩ | ⟨⟨rfl, rfl, rfl⟩, rfl⟩ | ⟨⟨rfl, rfl, rfl⟩, rfl⟩ |
        ⟨⟨rfl, rfl, rfl⟩, rfl⟩ | ⟨⟨rfl, rfl, rfl⟩, rfl⟩ | ⟨⟨rfl, rfl, rfl⟩, rfl⟩ <;> exact ⟨by decide, by decide⟩
    · rintro ⟨rfl, h2⟩
      repeat' split at h2
      all_goals first
        | (exact absurd rfl h2)
        | (rename_i h; obtain ⟨rfl, rfl, rfl⟩ := h; decide)
  constructor
  · rintro (h | ⟨rfl, h⟩)
    · exact ((hm n).1 h).1
    · by_cases e : colorName r g b = "CUSTOM".toList
      · exact e
      · exact absurd ((hm (colorName r g b)).2 ⟨rfl, e⟩) (h _)
  · rintro rfl
    by_cases e : colorName r g b = "CUSTOM".toList
    · exact Or.inr ⟨e, fun m hm' => ((hm m).1 hm').2 (((hm m).1 hm').1 ▸ e)⟩
    · exact Or.inl ((hm _).2 ⟨rfl, e⟩)

theorem trimmed {h : Str} (hh : '&' ∉ h) (hne : h ≠ []) {s : Str} (hs : s = "&H".toList ++ h ∨ s = "&H".toList ++ h ++ ['&']) :
    stripPrefix ['&', 'H'] (Transform.trimEndChar '&' s) = some h := by
  have hl : ("&H".toList ++ h).getLast? ≠ some '&' := by
    rw [List.getLast?_append]
    cases e : h.getLast? with
    | none => exact absurd (List.getLast?_eq_none_iff.1 e) hne
    | some c =>
      intro k
      simp only [Option.some_or, Option.some.injEq] at k
      exact hh (k ▸ List.mem_of_getLast? e)
  have ht : Transform.trimEndChar '&' s = "&H".toList ++ h := by
    rcases hs with rfl | rfl
    · unfold Transform.trimEndChar
      have : ("&H".toList ++ h).reverse.dropWhile (· == '&') = ("&H".toList ++ h).reverse := by
        cases hr : ("&H".toList ++ h).reverse with
        | nil => rfl
        | cons c r =>
          rw [List.dropWhile_cons, if_neg]
          intro e
          apply hl
          rw [← List.head?_reverse, hr]
          simpa using e
      rw [this, List.reverse_reverse]
    · exact Transform.trimEndChar_snoc hl
  rw [ht]
  simp [stripPrefix]

/-- A colour of eight hexadecimal digits, with or without the closing `&`, is reported with its four bytes, transparency first,
and with the name of the colour. -/
theorem C150_colour8 (pa pb pg pr : Str) (a b g r : Nat) (ha : HexByte pa a) (hb : HexByte pb b) (hg : HexByte pg g) (hr : HexByte pr r)
    (s : Str) (hs : s = "&H".toList ++ (pa ++ pb ++ pg ++ pr) ∨ s = "&H".toList ++ (pa ++ pb ++ pg ++ pr) ++ ['&']) :
    ∃ n, Named r g b n ∧ parseColor s = ⟨pa ++ pb ++ pg ++ pr, true, a, r, g, b, n⟩ := by
  refine ⟨colorName r g b, named_iff.2 rfl, ?_⟩
  obtain ⟨a1, a2, a3, a4⟩ := Animation.hex_amp ha
  obtain ⟨b1, b2, b3, b4⟩ := Animation.hex_amp hb
  obtain ⟨g1, g2, g3, g4⟩ := Animation.hex_amp hg
  obtain ⟨r1, r2, r3, r4⟩ := Animation.hex_amp hr
  have hne : pa ++ pb ++ pg ++ pr ≠ [] := by intro e; have := congrArg List.length e; simp [b3] at this
  have v : digitsVal 16 0 (pa ++ pb ++ pg ++ pr) = some (a * 16777216 + b * 65536 + g * 256 + r) := by
    rw [Color.digitsVal_append, Color.digitsVal_append, Color.digitsVal_append, ha.props.2.2.2]
    simp only [Option.bind_some]
    rw [hb.props.2.2.2]
    simp only [Option.bind_some]
    rw [hg.props.2.2.2]
    simp only [Option.bind_some]
    rw [hr.props.2.2.2]
    exact congrArg some (by omega)
  have := ha.props.2.2.1
  have := hb.props.2.2.1
  have := hg.props.2.2.1
  have := hr.props.2.2.1
  have hl : byteLen (pa ++ pb ++ pg ++ pr) = 8 := by rw [byteLen_append, byteLen_append, byteLen_append]; omega
  unfold parseColor
  rw [trimmed (by simp [a1, b1, g1, r1]) hne hs]
  dsimp only
  rw [Color.parseUnsigned_no_plus hne (by simp [a2, b2, g2, r2]) v (by unfold u32Bound; omega)]
  dsimp only
  rw [if_pos (by omega), show (a * 16777216 + b * 65536 + g * 256 + r) % 256 = r by omega,
    show (a * 16777216 + b * 65536 + g * 256 + r) / 256 % 256 = g by omega,
    show (a * 16777216 + b * 65536 + g * 256 + r) / 65536 % 256 = b by omega,
    show (a * 16777216 + b * 65536 + g * 256 + r) / 16777216 % 256 = a by omega]

example : parseColor "&H80FF00ff".toList = ⟨"80FF00ff".toList, true, 128, 255, 0, 255, "MAGENTA".toList⟩ := by decide +kernel

/-- A colour of six hexadecimal digits is reported as opaque with its three bytes and its name. -/
theorem C150_colour6 (pb pg pr : Str) (b g r : Nat) (hb : HexByte pb b) (hg : HexByte pg g) (hr : HexByte pr r)
    (s : Str) (hs : s = "&H".toList ++ (pb ++ pg ++ pr) ∨ s = "&H".toList ++ (pb ++ pg ++ pr) ++ ['&']) :
    ∃ n, Named r g b n ∧ parseColor s = ⟨pb ++ pg ++ pr, false, 0, r, g, b, n⟩ := by
  refine ⟨colorName r g b, named_iff.2 rfl, ?_⟩
  obtain ⟨b1, b2, b3, b4⟩ := Animation.hex_amp hb
  obtain ⟨g1, g2, g3, g4⟩ := Animation.hex_amp hg
  obtain ⟨r1, r2, r3, r4⟩ := Animation.hex_amp hr
  have hne : pb ++ pg ++ pr ≠ [] := by intro e; have := congrArg List.length e; simp [b3] at this
  have v : digitsVal 16 0 (pb ++ pg ++ pr) = some (b * 65536 + g * 256 + r) := by
    rw [Color.digitsVal_append, Color.digitsVal_append, hb.props.2.2.2]
    simp only [Option.bind_some]
    rw [hg.props.2.2.2]
    simp only [Option.bind_some]
    rw [hr.props.2.2.2]
    exact congrArg some (by omega)
  have := hb.props.2.2.1
  have := hg.props.2.2.1
  have := hr.props.2.2.1
  have hl : byteLen (pb ++ pg ++ pr) = 6 := by rw [byteLen_append, byteLen_append]; omega
  unfold parseColor
  rw [trimmed (by simp [b1, g1, r1]) hne hs]
  dsimp only
  rw [Color.parseUnsigned_no_plus hne (by simp [b2, g2, r2]) v (by unfold u32Bound; omega)]
  dsimp only
  rw [if_neg (by omega), show (b * 65536 + g * 256 + r) % 256 = r by omega,
    show (b * 65536 + g * 256 + r) / 256 % 256 = g by omega,
    show (b * 65536 + g * 256 + r) / 65536 % 256 = b by omega]

example : parseColor "&H00FFFF&".toList = ⟨"00FFFF".toList, false, 0, 255, 255, 0, "YELLOW".toList⟩ := by decide +kernel

/-- Colours in the other documented spellings, with a small `h` or as a decimal number, are reported as errors, though they are
the white and the red that the same report names when they are written in capitals. -/
theorem C150_spelling_violated :
    parseColor "&h00FFFFFF".toList = ⟨"INVALID".toList, false, 0, 0, 0, 0, "ERROR".toList⟩ ∧
    (parseColor "&H00FFFFFF".toList).expected = "WHITE".toList ∧
    parseColor "255".toList = ⟨"INVALID".toList, false, 0, 0, 0, 0, "ERROR".toList⟩ ∧
    (parseColor "&H0000FF".toList).expected = "RED".toList := by decide +kernel

/-- With seven digits the transparency is lost: `&H8FFFFFF` is reported as an opaque white. -/
theorem C150_seven_violated : parseColor "&H8FFFFFF".toList = ⟨"8FFFFFF".toList, false, 0, 255, 255, 255, "WHITE".toList⟩ := by decide +kernel

/-! ## The report about a script -/

theorem styles_iff {secs : List Section} {l : List Style} : Styles secs l ↔ firstStyles secs = l := by
  unfold Styles
  induction secs with
  | nil =>
    simp only [firstStyles]
    constructor
    · rintro (⟨a, m, b, h, _⟩ | ⟨_, rfl⟩)
      · cases a <;> simp at h
      · rfl
    · rintro rfl; exact Or.inr ⟨by simp, rfl⟩
  | cons s r ih =>
    by_cases hs : ∃ k, s = .styles k
    · obtain ⟨k, rfl⟩ := hs
      simp only [firstStyles]
      constructor
      · rintro (⟨a, m, b, h, h2, h3⟩ | ⟨h, _⟩)
        · cases a with
          | nil => simp only [List.nil_append, List.cons.injEq, Section.styles.injEq] at h; rw [h3, h.1]
          | cons x a =>
            simp only [List.cons_append, List.cons.injEq] at h
            exact absurd h.1.symm (h2 x (by simp) k)
        · exact absurd rfl (h _ List.mem_cons_self k)
      · rintro rfl
        exact Or.inl ⟨[], k, r, rfl, by simp, rfl⟩
    · have hs' : ∀ k, s ≠ .styles k := fun k e => hs ⟨k, e⟩
      have : firstStyles (s :: r) = firstStyles r := by
        cases s <;> first | rfl | exact absurd rfl (hs' _)
      rw [this, ← ih]
      constructor
      · rintro (⟨a, m, b, h, h2, h3⟩ | ⟨h, h'⟩)
        · cases a with
          | nil => simp only [List.nil_append, List.cons.injEq] at h; exact absurd h.1 (hs' m)
          | cons x a =>
            simp only [List.cons_append, List.cons.injEq] at h
            exact Or.inl ⟨a, m, b, h.2, fun y hy => h2 y (List.mem_cons_of_mem _ hy), h3⟩
        · exact Or.inr ⟨fun x hx => h x (List.mem_cons_of_mem _ hx), h'⟩
      · rintro (⟨a, m, b, h, h2, h3⟩ | ⟨h, h'⟩)
        · refine Or.inl ⟨s :: a, m, b, by rw [h]; rfl, ?_, h3⟩
          intro x hx
          rcases List.mem_cons.1 hx with rfl | hx
          · exact hs'
          · exact h2 x hx
        · refine Or.inr ⟨?_, h'⟩
          intro x hx
          rcases List.mem_cons.1 hx with rfl | hx
          · exact hs'
          · exact h x hx

theorem events_iff {secs : List Section} {l : List Event} : Events secs l ↔ firstEvents secs = l := by
  unfold Events
  induction secs with
  | nil =>
    simp only [firstEvents]
    constructor
    · rintro (⟨a, m, b, h, _⟩ | ⟨_, rfl⟩)
      · cases a <;> simp at h
      · rfl
    · rintro rfl; exact Or.inr ⟨by simp, rfl⟩
  | cons s r ih =>
    by_cases hs : ∃ k, s = .events k
    · obtain ⟨k, rfl⟩ := hs
      simp only [firstEvents]
      constructor
      · rintro (⟨a, m, b, h, h2, h3⟩ | ⟨h, _⟩)
        · cases a with
          | nil => simp only [List.nil_append, List.cons.injEq, Section.events.injEq] at h; rw [h3, h.1]
          | cons x a =>
            simp only [List.cons_append, List.cons.injEq] at h
            exact absurd h.1.symm (h2 x (by simp) k)
        · exact absurd rfl (h _ List.mem_cons_self k)
      · rintro rfl
        exact Or.inl ⟨[], k, r, rfl, by simp, rfl⟩
    · have hs' : ∀ k, s ≠ .events k := fun k e => hs ⟨k, e⟩
      have : firstEvents (s :: r) = firstEvents r := by
        cases s <;> first | rfl | exact absurd rfl (hs' _)
      rw [this, ← ih]
      constructor
      · rintro (⟨a, m, b, h, h2, h3⟩ | ⟨h, h'⟩)
        · cases a with
          | nil => simp only [List.nil_append, List.cons.injEq] at h; exact absurd h.1 (hs' m)
          | cons x a =>
            simp only [List.cons_append, List.cons.injEq] at h
            exact Or.inl ⟨a, m, b, h.2, fun y hy => h2 y (List.mem_cons_of_mem _ hy), h3⟩
        · exact Or.inr ⟨fun x hx => h x (List.mem_cons_of_mem _ hx), h'⟩
      · rintro (⟨a, m, b, h, h2, h3⟩ | ⟨h, h'⟩)
        · refine Or.inl ⟨s :: a, m, b, by rw [h]; rfl, ?_, h3⟩
          intro x hx
          rcases List.mem_cons.1 hx with rfl | hx
          · exact hs'
          · exact h2 x hx
        · refine Or.inr ⟨?_, h'⟩
          intro x hx
          rcases List.mem_cons.1 hx with rfl | hx
          · exact hs'
          · exact h x hx

/-- The report has one entry for each style of the first section of styles, in their order, with the name, the four colours as
they are written, and what the primary colour means. -/
theorem C150_styles (secs : List Section) (l : List Style) (h : Styles secs l) :
    (analyze secs).styles.length = l.length ∧ ∀ (k : Nat) (s : Style), l[k]? = some s → ∃ e : StyleColors, (analyze secs).styles[k]? = some e ∧
      e.name = s.name ∧ e.primary = s.primary ∧ e.secondary = s.secondary ∧ e.outline = s.outlineColour ∧ e.back = s.back ∧
      e.parsed = parseColor s.primary := by
  have := styles_iff.1 h
  subst this
  simp only [analyze, List.length_map, true_and]
  intro k s hs
  exact ⟨entry s, by simp [hs], rfl, rfl, rfl, rfl, rfl, rfl⟩

/-- The report speaks of colour overrides if and only if the text of some event of the first section of events holds `\c` or
`\1c`. -/
theorem C150_overrides (secs : List Section) (l : List Event) (h : Events secs l) :
    (analyze secs).overrides = true ↔ ∃ e ∈ l, (∃ a b, e.text = a ++ "\\c".toList ++ b) ∨ ∃ a b, e.text = a ++ "\\1c".toList ++ b := by
  have := events_iff.1 h
  subst this
  simp only [analyze, List.any_eq_true, Bool.or_eq_true, containsStr_iff]

/-- A style and an event for examples. -/
def white : Style := { name := "Default".toList, parent := none, fontname := "Arial".toList, fontsize := "20".toList,
                       primary := "&H00FFFFFF".toList, secondary := "&H000000FF".toList, outlineColour := "&H0".toList, back := "&H1".toList,
                       bold := [], italic := [], underline := [], strikeout := [], scaleX := [], scaleY := [], spacing := [], angle := [],
                       borderStyle := [], outline := [], shadow := [], alignment := [], marginL := [], marginR := [], marginV := [],
                       marginT := none, marginB := none, encoding := [], relativeTo := none }

/-- An event with this text. -/
def line (text : Str) : Event := { kind := .dialogue, layer := [], start := [], stop := [], style := [], name := [], marginL := [],
                                   marginR := [], marginV := [], marginT := none, marginB := none, effect := [], text := text }

example : (analyze [.styles [(white, ⟨0, 0, 0, 0⟩)], .events [(line "{\\c&HFF&}x".toList, ⟨0, 0, 0, 0⟩)]]).styles.map (·.parsed.expected) =
    ["WHITE".toList] := by decide +kernel
example : Styles [.styles [(white, ⟨0, 0, 0, 0⟩)]] [white] := Or.inl ⟨[], [(white, ⟨0, 0, 0, 0⟩)], [], rfl, by simp, rfl⟩
example : Events [.events [(line "a".toList, ⟨0, 0, 0, 0⟩)]] [line "a".toList] :=
  Or.inl ⟨[], [(line "a".toList, ⟨0, 0, 0, 0⟩)], [], rfl, by simp, rfl⟩

/-- A clip counts as a colour override, and the colour of the outline does not. -/
theorem C150_overrides_violated :
    (analyze [.events [(line "{\\clip(0,0,9,9)}x".toList, ⟨0, 0, 0, 0⟩)]]).overrides = true ∧
    (analyze [.events [(line "{\\3c&HFF&}x".toList, ⟨0, 0, 0, 0⟩)]]).overrides = false := by decide +kernel

end Verif.Props.DebugRender
