import Verif.Lemmas.Atlas
/-!
# C25, C59 — texture atlas
-/
namespace Verif.Props
open Verif Verif.Atlas Verif.Spec.Atl

/-- **C25, disjointness.** On a fresh atlas, any sequence of requests of any sizes that does not overflow
32-bit coordinates yields pairwise disjoint regions, of the requested sizes, above the lower edge. -/
theorem C25_disjoint (W H : Nat) (a a' : Atlas) (reqs : List (Nat × Nat)) (rs : List Region)
    (_hnew : new W H = .ok a) (hrun : run reqs a = .ok (rs, a')) :
    rs.Pairwise Disjoint ∧ ∀ r ∈ rs, (r.w, r.h) ∈ reqs := by
  obtain ⟨h1, _, h3⟩ := run_spec reqs a a' rs hrun
  exact ⟨h1, fun r hr => (h3 r hr).2.1⟩

/-- **C25, bounds, partial.** All regions lie inside the atlas when no request is wider than the atlas.
Missing: wider requests, see `C25_in_bounds_violated`. -/
theorem C25_in_bounds_partial (W H : Nat) (a a' : Atlas) (reqs : List (Nat × Nat)) (rs : List Region)
    (hnew : new W H = .ok a) (hw : ∀ q ∈ reqs, q.1 ≤ W) (hrun : run reqs a = .ok (rs, a')) :
    ∀ r ∈ rs, InBounds W H r := by
  unfold new at hnew
  split at hnew
  · simp only [Outcome.ok.injEq] at hnew
    subst hnew
    obtain ⟨_, _, h3⟩ := run_spec reqs _ a' rs hrun
    intro r hr px py hc
    obtain ⟨j1, j2, j3⟩ := h3 r hr
    simp only at j1 j3
    have := j3 (hw _ j2)
    unfold Covers at hc
    omega
  · simp at hnew

/-- **C25.** With requests no larger than a 65535 × 65535 atlas coordinates never overflow: every request
sequence completes. -/
theorem C25_no_overflow (a : Atlas) (reqs : List (Nat × Nat))
    (ha : a.width < 65536 ∧ a.height < 65536 ∧ a.nextX ≤ 65536 * 2 ∧ a.nextY ≤ 65536 * 2 ∧ a.rowH ≤ 65536 ∧
      a.nextY + a.rowH ≤ 65536 * 2)
    (hw : ∀ q ∈ reqs, q.1 < 65536 ∧ q.2 < 65536) : ∃ rs a', run reqs a = .ok (rs, a') := by
  induction reqs generalizing a with
  | nil => exact ⟨_, _, rfl⟩
  | cons q reqs ih =>
    obtain ⟨w, h⟩ := q
    have hq := hw (w, h) (by simp)
    simp only at hq
    have hadv : (advance a w).width = a.width ∧ (advance a w).height = a.height ∧
        (advance a w).nextX ≤ 65536 ∧ (advance a w).nextY ≤ 65536 * 2 ∧ (advance a w).rowH ≤ 65536 ∧
        (advance a w).nextY + (advance a w).rowH ≤ 65536 * 2 := by
      unfold advance
      split
      · refine ⟨rfl, rfl, Nat.zero_le _, ?_, Nat.zero_le _, ?_⟩ <;> simp only <;> omega
      · refine ⟨rfl, rfl, ?_, ?_, ?_, ?_⟩ <;> omega
    simp only [run]
    cases hal : allocate a w h with
    | panic =>
      exfalso
      unfold allocate lim at hal
      split at hal
      · omega
      · simp only at hal
        split at hal
        · omega
        · split at hal <;> simp at hal
    | err =>
      exfalso
      unfold allocate at hal
      split at hal
      · simp at hal
      · simp only at hal
        split at hal
        · simp at hal
        · split at hal <;> simp at hal
    | ok v =>
      obtain ⟨o, b⟩ := v
      have hb : b.width < 65536 ∧ b.height < 65536 ∧ b.nextX ≤ 65536 * 2 ∧ b.nextY ≤ 65536 * 2 ∧ b.rowH ≤ 65536 ∧
          b.nextY + b.rowH ≤ 65536 * 2 := by
        unfold allocate at hal
        split at hal
        · simp at hal
        · simp only at hal
          generalize advance a w = c at *
          split at hal
          · simp at hal
          · split at hal
            · simp only [Outcome.ok.injEq, Prod.mk.injEq] at hal
              obtain ⟨_, rfl⟩ := hal
              omega
            · simp only [Outcome.ok.injEq, Prod.mk.injEq] at hal
              obtain ⟨_, rfl⟩ := hal
              simp only
              omega
      obtain ⟨rs, a', hr⟩ := ih b hb (fun q hq => hw q (by simp [hq]))
      cases o with
      | none => exact ⟨rs, a', hr⟩
      | some r => exact ⟨r :: rs, a', by simp only [hr]⟩

/-- A 100 × 50 atlas. -/
def demoAtlas : Atlas := ⟨100, 50, fun _ => 0, [], 0, 0, 0⟩
example : new 100 50 = .ok demoAtlas := by simp [new, lim, demoAtlas]
/-- Regions handed out, ignoring the memory. -/
def regionsOf (o : Outcome (List Region × Atlas)) : List Region :=
  match o with
  | .ok (rs, _) => rs
  | _ => []
example : regionsOf (run [(60, 20), (60, 20), (30, 10), (90, 40), (10, 5)] demoAtlas) =
    [⟨0, 0, 0, 60, 20⟩, ⟨1, 0, 20, 60, 20⟩, ⟨2, 60, 20, 30, 10⟩, ⟨3, 0, 40, 10, 5⟩] := by decide

/-- **C25, disagreement.** A request wider than the atlas is granted and sticks out on the right. -/
theorem C25_in_bounds_violated :
    ¬ ∀ (W H : Nat) (a a' : Atlas) (w h : Nat) (r : Region), new W H = .ok a →
        allocate a w h = .ok (some r, a') → InBounds W H r := by
  intro h
  have := h 100 50 demoAtlas _ 200 10 ⟨0, 0, 0, 200, 10⟩ (by simp [new, lim, demoAtlas])
    (by simp only [allocate, advance, demoAtlas, lim]; rfl) 150 0 (by unfold Covers; decide)
  omega

/-- **C59.** Writing the pixels of a region that lies inside the atlas stores exactly the given pixels and
changes no pixel outside the region. -/
theorem C59_write_region (a : Atlas) (r : Region) (src : Nat → Nat) (len : Nat)
    (hx : r.x + r.w ≤ a.width) (hy : r.y + r.h ≤ a.height) (hlen : r.w * r.h * 4 ≤ len)
    (px py c : Nat) (hpx : px < a.width) (hc : c < 4) :
    (Covers r px py → pixel (writeRegion a r src len) px py c =
      src (((py - r.y) * r.w + (px - r.x)) * 4 + c)) ∧
    (¬ Covers r px py → pixel (writeRegion a r src len) px py c = pixel a px py c) := by
  have h := writeRows_get (W := a.width) (H := a.height) (r := r) (src := src) (len := len) hx hy hlen a.data
    (px := px) (py := py) (c := c) hpx hc r.h (Nat.le_refl _)
  unfold pixel writeRegion Covers
  simp only [h]
  constructor
  · intro hcov; rw [if_pos hcov]
  · intro hcov; rw [if_neg hcov]

/-- **C59.** Hence writing one region never disturbs another, disjoint one. -/
theorem C59_others_untouched (a : Atlas) (r q : Region) (src : Nat → Nat) (len : Nat)
    (hx : r.x + r.w ≤ a.width) (hy : r.y + r.h ≤ a.height) (hlen : r.w * r.h * 4 ≤ len)
    (hdis : Disjoint r q) (hq : InBounds a.width a.height q) (px py c : Nat) (hc : c < 4)
    (hcov : Covers q px py) : pixel (writeRegion a r src len) px py c = pixel a px py c :=
  (C59_write_region a r src len hx hy hlen px py c (hq px py hcov).1 hc).2 (fun h => hdis px py ⟨h, hcov⟩)

/-- **C59.** For a region inside the atlas every offset stays within the memory. -/
theorem C59_in_bounds (a : Atlas) (r : Region) (hx : r.x + r.w ≤ a.width) (hy : r.y + r.h ≤ a.height)
    (y : Nat) (h : y < r.h) :
    (r.y + y) * (a.width * 4) + r.x * 4 + r.w * 4 ≤ a.width * a.height * 4 := row_end hx hy h

example : (60 : Nat) + 30 ≤ demoAtlas.width ∧ 20 + 10 ≤ demoAtlas.height := by decide

/-- **C59, disagreement.** Writing a granted region that is wider than the atlas overwrites pixels of the
rows below, which belong to other regions. -/
theorem C59_others_untouched_violated :
    ¬ ∀ (a b c : Atlas) (r q : Region) (w h w' h' : Nat) (src : Nat → Nat) (len : Nat),
        allocate a w h = .ok (some r, b) → allocate b w' h' = .ok (some q, c) →
        ∀ px py k, k < 4 → Covers q px py → pixel (writeRegion c r src len) px py k = pixel c px py k := by
  intro h
  let a : Atlas := ⟨10, 5, fun _ => 0, [], 0, 0, 0⟩
  let b : Atlas := { a with nextX := 15, rowH := 1, allocations := [⟨0, 0, 0, 15, 1⟩] }
  let c : Atlas := { b with nextX := 4, nextY := 1, rowH := 2, allocations := [⟨0, 0, 0, 15, 1⟩, ⟨1, 0, 1, 4, 2⟩] }
  have := h a b c ⟨0, 0, 0, 15, 1⟩ ⟨1, 0, 1, 4, 2⟩ 15 1 4 2 (fun _ => 255) 60
    (by simp only [allocate, advance, lim, a, b]; rfl)
    (by simp only [allocate, advance, lim, a, b, c]; rfl) 2 1 0 (by decide) (by unfold Covers; decide)
  simp [pixel, writeRegion, writeRow, copy, a, b, c] at this

end Verif.Props
