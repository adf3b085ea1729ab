import Verif.Lemmas.Collision
/-!
# C24 — collision resolver
-/
namespace Verif.Props
open Verif.Collision Verif.Spec.Coll

/-- **C24, partial.** Whenever the chosen box does not touch the top or bottom edge of the screen, it keeps
twice the margin from every previously placed event of its layer.  Missing: boxes held back by the screen
edge, see `C24_separated_violated`. -/
theorem C24_separated_partial (r : Resolver) (e : Ev)
    (htop : 0 < (r.findPosition e).1.y) (hbot : (r.findPosition e).1.y + (r.findPosition e).1.h < r.screenH) :
    ∀ p ∈ r.placed, p.layer = e.layer → Apart (2 * r.margin) (r.findPosition e).1 p.bbox := by
  intro p hp hl
  have h := search_apart r e p hp hl
  simp only [Resolver.findPosition] at *
  rw [clamp_interior htop (by grind)]
  exact h

/-- Hence, with a margin that is not negative, it overlaps none of them.
Missing: boxes that the edge of the screen holds back, which may overlap (`C24_separated_violated`). -/
theorem C24_no_overlap_partial (r : Resolver) (e : Ev) (hm : 0 ≤ r.margin)
    (htop : 0 < (r.findPosition e).1.y) (hbot : (r.findPosition e).1.y + (r.findPosition e).1.h < r.screenH) :
    ∀ p ∈ r.placed, p.layer = e.layer → ¬ Overlap (r.findPosition e).1 p.bbox :=
  fun p hp hl => apart_not_overlap (by grind) (C24_separated_partial r e htop hbot p hp hl)

/-- A placed subtitle at the bottom, and a second one that has to make room. -/
def demoResolver : Resolver := ⟨1080, [⟨⟨100, 900, 200, 50⟩, 0, 2, 100⟩, ⟨⟨100, 840, 200, 50⟩, 0, 2, 100⟩], 2⟩
example : (demoResolver.findPosition ⟨⟨100, 900, 200, 50⟩, 0, 2, 50⟩).1 = ⟨100, 786, 200, 50⟩ := by decide +kernel

/-- **C24.** The chosen box is always on the screen, vertically, if it fits at all; only its vertical
position changes. -/
theorem C24_on_screen (r : Resolver) (e : Ev) (hfit : e.bbox.h ≤ r.screenH) :
    OnScreen r.screenH (r.findPosition e).1 ∧
      (r.findPosition e).1.x = e.bbox.x ∧ (r.findPosition e).1.w = e.bbox.w ∧
      (r.findPosition e).1.h = e.bbox.h := by
  obtain ⟨h1, h2, h3⟩ := search_shape r.placed r.margin e.layer (pushDown e.alignment) (r.placed.length + 1) e.bbox
  simp only [Resolver.findPosition, OnScreen]
  have := clamp_bounds (hi := max (r.screenH - (search r.placed r.margin e.layer (pushDown e.alignment)
    (r.placed.length + 1) e.bbox).h) 0)
    (y := (search r.placed r.margin e.layer (pushDown e.alignment) (r.placed.length + 1) e.bbox).y) (by grind)
  refine ⟨⟨this.1, ?_⟩, h1, h2, h3⟩
  grind

example : (⟨100, 900, 200, 50⟩ : Box).h ≤ demoResolver.screenH := by decide +kernel

/-- **C24.** An event already apart from everything of its layer and on screen stays where it is. -/
theorem C24_no_needless_move (r : Resolver) (e : Ev)
    (hfree : ∀ p ∈ r.placed, p.layer = e.layer → Apart (2 * r.margin) e.bbox p.bbox)
    (hon : OnScreen r.screenH e.bbox) : (r.findPosition e).1 = e.bbox := by
  simp only [Resolver.findPosition]
  rw [search_of_clear hfree]
  unfold OnScreen at hon
  have : clamp 0 (max (r.screenH - e.bbox.h) 0) e.bbox.y = e.bbox.y := by
    unfold clamp
    rw [if_neg (by grind), if_neg (by grind)]
  rw [this]

/-- **C24.** Bottom-aligned events (1–3) only move up, all others only down, apart from being brought back
on screen. -/
theorem C24_direction (r : Resolver) (e : Ev) (hon : OnScreen r.screenH e.bbox) :
    if e.alignment = 1 ∨ e.alignment = 2 ∨ e.alignment = 3 then (r.findPosition e).1.y ≤ e.bbox.y
    else e.bbox.y ≤ (r.findPosition e).1.y := by
  have h := search_dir r.placed r.margin e.layer (pushDown e.alignment) (r.placed.length + 1) e.bbox
  obtain ⟨_, _, h3⟩ := search_shape r.placed r.margin e.layer (pushDown e.alignment) (r.placed.length + 1) e.bbox
  unfold OnScreen at hon
  simp only [Resolver.findPosition, clamp]
  split
  · next hal =>
    have : pushDown e.alignment = false := by
      unfold pushDown; rcases hal with h | h | h <;> rw [h] <;> decide
    rw [this] at h ⊢
    simp only [Bool.false_eq_true, if_false] at h
    rw [this] at h3
    split
    · grind
    · split <;> grind
  · next hal =>
    have : pushDown e.alignment = true := by
      unfold pushDown
      simp only [Bool.not_eq_true', Bool.and_eq_false_iff, decide_eq_false_iff_not]
      grind
    rw [this] at h ⊢
    simp only [if_true] at h
    rw [this] at h3
    split
    · grind
    · split <;> grind

/-- **C24, disagreement.** The chosen box can overlap an earlier one although the screen has room for both:
the event is only moved in one direction and then clamped back onto the one in the way. -/
theorem C24_separated_violated :
    ¬ ∀ (r : Resolver) (e : Ev), r.margin = 2 →
        (∃ y, OnScreen r.screenH { e.bbox with y := y } ∧
          ∀ p ∈ r.placed, p.layer = e.layer → Apart 4 { e.bbox with y := y } p.bbox) →
        ∀ p ∈ r.placed, p.layer = e.layer → ¬ Overlap (r.findPosition e).1 p.bbox := by
  intro h
  have := h ⟨100, [⟨⟨0, 60, 50, 40⟩, 0, 8, 0⟩], 2⟩ ⟨⟨0, 50, 50, 40⟩, 0, 8, 0⟩ rfl
    ⟨0, ⟨by decide +kernel, by decide +kernel⟩, by
      intro p hp _
      simp only [List.mem_singleton] at hp
      subst hp
      unfold Apart; exact .inr (.inr (.inl (by decide +kernel)))⟩ _ (List.mem_singleton.2 rfl) rfl
  exact this (by unfold Overlap; decide +kernel)

/-- **C24 over a history.** After placing any list of events one after the other on an empty screen, two
events of one layer whose chosen boxes do not touch the screen edges never overlap.
Missing: events held back by the edge of the screen (`C24_separated_violated`). -/
theorem C24_history_partial (H : Rat) : ∀ (evs : List Ev) (r : Resolver), r.screenH = H → 0 ≤ r.margin →
    r.placed.Pairwise (fun a b => a.layer = b.layer → (0 < b.bbox.y ∧ b.bbox.y + b.bbox.h < H) →
      ¬ Overlap b.bbox a.bbox) →
    (placeAll r evs).2.placed.Pairwise (fun a b => a.layer = b.layer →
      (0 < b.bbox.y ∧ b.bbox.y + b.bbox.h < H) → ¬ Overlap b.bbox a.bbox) := by
  intro evs
  induction evs with
  | nil => intro r _ _ h; exact h
  | cons e l ih =>
    intro r hH hm h
    simp only [placeAll]
    apply ih
    · simpa [Resolver.findPosition] using hH
    · simpa [Resolver.findPosition] using hm
    · have key := C24_no_overlap_partial r e hm
      simp only [Resolver.findPosition] at key ⊢
      rw [List.pairwise_append]
      refine ⟨h, by simp, ?_⟩
      intro a ha b hb hl hin
      simp only [List.mem_singleton] at hb
      subst hb
      simp only at hl hin ⊢
      rw [← hH] at hin
      exact key hin.1 hin.2 a ha hl

example : ((placeAll (Resolver.new 1080) [⟨⟨100, 900, 200, 50⟩, 0, 2, 0⟩, ⟨⟨100, 900, 200, 50⟩, 0, 2, 0⟩,
    ⟨⟨100, 900, 200, 50⟩, 0, 2, 0⟩]).1) = [⟨100, 900, 200, 50⟩, ⟨100, 846, 200, 50⟩, ⟨100, 792, 200, 50⟩] := by
  decide +kernel

theorem processLoop_spec (thr : Int) : ∀ (l : List Ev) (r : Resolver),
    (processLoop thr r l).1.length = l.length ∧
    ∀ (i : Nat) (e : Ev), l[i]? = some e → ∃ e', (processLoop thr r l).1[i]? = some e' ∧
      e'.layer = e.layer ∧ e'.alignment = e.alignment ∧ e'.priority = e.priority ∧
      e'.bbox.x = e.bbox.x ∧ e'.bbox.w = e.bbox.w ∧ e'.bbox.h = e.bbox.h ∧
      (e.priority ≥ thr → e' = e) ∧
      (e.priority < thr → e.bbox.h ≤ r.screenH → OnScreen r.screenH e'.bbox) := by
  intro l
  induction l with
  | nil => intro r; simp [processLoop]
  | cons e l ih =>
    intro r
    simp only [processLoop]
    by_cases hp : e.priority ≥ thr
    · rw [if_pos hp]
      obtain ⟨h1, h2⟩ := ih (r.addFixed e)
      refine ⟨by simp [h1], ?_⟩
      intro i x hx
      cases i with
      | zero =>
        simp only [List.getElem?_cons_zero, Option.some.injEq] at hx
        subst hx
        refine ⟨e, by simp, rfl, rfl, rfl, rfl, rfl, rfl, fun _ => rfl, fun h => by grind⟩
      | succ i =>
        simp only [List.getElem?_cons_succ] at hx ⊢
        exact h2 i x hx
    · rw [if_neg hp]
      obtain ⟨h1, h2⟩ := ih (r.findPosition e).2
      refine ⟨by simp [h1], ?_⟩
      intro i x hx
      cases i with
      | zero =>
        simp only [List.getElem?_cons_zero, Option.some.injEq] at hx
        subst hx
        obtain ⟨s1, s2, s3⟩ := search_shape r.placed r.margin e.layer (pushDown e.alignment) (r.placed.length + 1) e.bbox
        refine ⟨{ e with bbox := (r.findPosition e).1 }, by simp, rfl, rfl, rfl, s1, s2, s3, fun h => absurd h hp, ?_⟩
        intro _ hf
        exact (C24_on_screen r e hf).1
      | succ i =>
        simp only [List.getElem?_cons_succ] at hx ⊢
        have := h2 i x hx
        simpa [Resolver.findPosition] using this

/-- **C24, whole batches.** Processing a batch keeps every event (in order of falling priority), moves no
event at or above the threshold, changes nothing but vertical positions, and leaves every moved event that
fits on the screen. -/
theorem C24_process (r : Resolver) (thr : Int) (evs : List Ev) :
    ∃ sorted : List Ev, sorted.Perm evs ∧ sorted.Pairwise (fun a b => a.priority ≥ b.priority) ∧
      (r.process thr evs).1.length = evs.length ∧
      ∀ (i : Nat) (e : Ev), sorted[i]? = some e → ∃ e', (r.process thr evs).1[i]? = some e' ∧
        e'.layer = e.layer ∧ e'.alignment = e.alignment ∧ e'.priority = e.priority ∧
        e'.bbox.x = e.bbox.x ∧ e'.bbox.w = e.bbox.w ∧ e'.bbox.h = e.bbox.h ∧
        (e.priority ≥ thr → e' = e) ∧
        (e.priority < thr → e.bbox.h ≤ r.screenH → OnScreen r.screenH e'.bbox) := by
  have hperm := List.mergeSort_perm evs (fun a b => decide (-a.priority ≤ -b.priority))
  refine ⟨evs.mergeSort (fun a b => decide (-a.priority ≤ -b.priority)), hperm, ?_, ?_, ?_⟩
  · have := List.pairwise_mergeSort (le := fun (a b : Ev) => decide (-a.priority ≤ -b.priority))
      (by intro a b c h1 h2; simp only [decide_eq_true_eq] at *; grind)
      (by intro a b; simp only [Bool.or_eq_true, decide_eq_true_eq]; grind) evs
    apply this.imp
    intro a b h
    simp only [decide_eq_true_eq] at h; grind
  · rw [Resolver.process, (processLoop_spec thr _ _).1, hperm.length_eq]
  · intro i e h
    exact (processLoop_spec thr _ { r with placed := [] }).2 i e h

example : ((Resolver.new 1080).process 100 [⟨⟨0, 900, 9, 50⟩, 0, 2, 50⟩, ⟨⟨0, 900, 9, 50⟩, 0, 2, 100⟩]).1 =
    [⟨⟨0, 900, 9, 50⟩, 0, 2, 100⟩, ⟨⟨0, 846, 9, 50⟩, 0, 2, 50⟩] := by
  have : ([⟨⟨0, 900, 9, 50⟩, 0, 2, 50⟩, ⟨⟨0, 900, 9, 50⟩, 0, 2, 100⟩] : List Ev).mergeSort
      (fun a b => decide (-a.priority ≤ -b.priority)) =
      [⟨⟨0, 900, 9, 50⟩, 0, 2, 100⟩, ⟨⟨0, 900, 9, 50⟩, 0, 2, 50⟩] := by
    simp [List.mergeSort, List.MergeSort.Internal.splitInTwo]
  rw [Resolver.process, this]
  decide +kernel

theorem tryOffsets_sound {b : Box} {existing : List Box} {ok : Rat → Bool} : ∀ {l : List Rat} {p : Rat × Rat},
    tryOffsets b existing ok l = some p →
    p.1 = b.x ∧ ok p.2 = true ∧ ∀ e ∈ existing, { b with y := p.2 }.intersects e = false := by
  intro l
  induction l with
  | nil => intro p h; simp [tryOffsets] at h
  | cons d l ih =>
    intro p h
    simp only [tryOffsets] at h
    split at h
    · next hc =>
      injection h with h
      subst h
      simp only [Bool.and_eq_true, Bool.not_eq_true', checkCollision, List.any_eq_false] at hc
      refine ⟨rfl, hc.1, fun e he => ?_⟩
      simpa using hc.2 e he
    · exact ih h

/-- **C24, free-position search.** A position returned by the search hits no existing box. -/
theorem C24_free_position_sound (step : Rat) (b : Box) (existing : List Box) (bounds : Box) (p : Rat × Rat)
    (h : findFree step b existing bounds = some p) :
    p.1 = b.x ∧ (p.2 + b.h ≤ bounds.h ∨ 0 ≤ p.2) ∧ ∀ e ∈ existing, ¬ Overlap ⟨p.1, p.2, b.w, b.h⟩ e := by
  have conv : ∀ e : Box, (Box.intersects ⟨b.x, p.2, b.w, b.h⟩ e = false) → ¬ Overlap ⟨b.x, p.2, b.w, b.h⟩ e := by
    intro e h ho
    rw [Bool.eq_false_iff, ne_eq, intersects_iff] at h
    unfold Overlap at ho
    simp only at h ho
    grind
  unfold findFree at h
  split at h
  · next q hq =>
    injection h with h
    subst h
    obtain ⟨h1, h2, h3⟩ := tryOffsets_sound hq
    rw [h1]
    exact ⟨rfl, .inl (by simpa using h2), fun e he => conv e (h3 e he)⟩
  · obtain ⟨h1, h2, h3⟩ := tryOffsets_sound h
    rw [h1]
    exact ⟨rfl, .inr (by simpa using h2), fun e he => conv e (h3 e he)⟩

example : findFree 10 ⟨0, 100, 50, 20⟩ [⟨0, 90, 50, 40⟩] ⟨0, 0, 200, 150⟩ = some (0, 130) := by decide +kernel

/-- **C24, free-position search.** It does not keep the position inside the bounds: moving down it never
compares with the top, so a box above the screen is returned unchanged. -/
theorem C24_free_position_violated :
    ¬ ∀ (b : Box) (existing : List Box) (bounds : Box) (p : Rat × Rat),
        findFree 10 b existing bounds = some p → bounds.y ≤ p.2 := by
  intro h
  have := h ⟨0, -50, 10, 10⟩ [] ⟨0, 0, 100, 100⟩ (0, -50) (by decide +kernel)
  exact absurd this (by decide +kernel)

end Verif.Props
