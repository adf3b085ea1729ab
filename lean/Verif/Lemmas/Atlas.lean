import Verif.Spec.Atlas
namespace Verif.Atlas
open Verif Verif.Spec.Atl

/-- Packing invariant: a region is in a finished row, or in the current row left of the next free column. -/
def Placed (a : Atlas) (r : Region) : Prop :=
  r.y + r.h ≤ a.nextY ∨ (r.y = a.nextY ∧ r.x + r.w ≤ a.nextX ∧ r.h ≤ a.rowH)

theorem advance_placed {a : Atlas} {w : Nat} {r : Region} (h : Placed a r) : Placed (advance a w) r := by
  unfold advance Placed at *
  split
  · left
    simp only
    omega
  · exact h

theorem advance_same (a : Atlas) (w : Nat) : (advance a w).width = a.width ∧ (advance a w).height = a.height ∧
    (advance a w).allocations = a.allocations ∧ (advance a w).data = a.data := by
  unfold advance; split <;> simp

/-- What a successful allocation gives. -/
theorem allocate_some {a a' : Atlas} {w h : Nat} {r : Region} (hal : allocate a w h = .ok (some r, a')) :
    r.w = w ∧ r.h = h ∧ r.y + r.h ≤ a.height ∧ (w ≤ a.width → r.x + r.w ≤ a.width) ∧ Placed a' r ∧
    (∀ q, Placed a q → Placed a' q ∧ Disjoint q r) ∧
    a'.width = a.width ∧ a'.height = a.height ∧ a'.allocations = a.allocations ++ [r] ∧ a'.data = a.data := by
  unfold allocate at hal
  split at hal
  · simp at hal
  · obtain ⟨e1, e2, e3, e4⟩ := advance_same a w
    simp only at hal
    split at hal
    · simp at hal
    · split at hal
      · simp at hal
      · next h1 h2 h3 =>
        simp only [Outcome.ok.injEq, Prod.mk.injEq, Option.some.injEq] at hal
        obtain ⟨hr, ha⟩ := hal
        subst hr ha
        refine ⟨rfl, rfl, ?_, ?_, ?_, ?_, e1, e2, by simp [e3], e4⟩
        · rw [e2] at h3; simp only; omega
        · intro hw
          simp only
          unfold advance
          split
          · simp only; omega
          · omega
        · right; simp only; exact ⟨trivial, Nat.le_refl _, Nat.le_max_right _ _⟩
        · intro q hq
          have hq' := advance_placed (w := w) hq
          generalize advance a w = b at *
          constructor
          · unfold Placed at *; simp only; omega
          · intro px py ⟨c1, c2⟩
            unfold Covers Placed at *
            simp only at c2
            omega

theorem allocate_none {a a' : Atlas} {w h : Nat} (hal : allocate a w h = .ok (none, a')) :
    (∀ q, Placed a q → Placed a' q) ∧ a'.width = a.width ∧ a'.height = a.height ∧
      a'.allocations = a.allocations ∧ a'.data = a.data := by
  unfold allocate at hal
  split at hal
  · simp at hal
  · simp only at hal
    split at hal
    · simp at hal
    · split at hal
      · simp only [Outcome.ok.injEq, Prod.mk.injEq, true_and] at hal
        subst hal
        obtain ⟨e1, e2, e3, e4⟩ := advance_same a w
        exact ⟨fun q hq => advance_placed hq, e1, e2, e3, e4⟩
      · simp at hal

theorem run_spec : ∀ (reqs : List (Nat × Nat)) (a a' : Atlas) (rs : List Region), run reqs a = .ok (rs, a') →
    rs.Pairwise Disjoint ∧ (∀ q, Placed a q → ∀ r ∈ rs, Disjoint q r) ∧
    (∀ r ∈ rs, r.y + r.h ≤ a.height ∧ (r.w, r.h) ∈ reqs ∧ (r.w ≤ a.width → r.x + r.w ≤ a.width)) := by
  intro reqs
  induction reqs with
  | nil =>
    intro a a' rs h
    simp only [run, Outcome.ok.injEq, Prod.mk.injEq] at h
    obtain ⟨rfl, _⟩ := h
    simp
  | cons q reqs ih =>
    obtain ⟨w, h⟩ := q
    intro a a' rs hrun
    simp only [run] at hrun
    cases hal : allocate a w h with
    | panic => rw [hal] at hrun; simp at hrun
    | err => rw [hal] at hrun; simp at hrun
    | ok v =>
      obtain ⟨o, b⟩ := v
      rw [hal] at hrun
      cases o with
      | none =>
        simp only at hrun
        obtain ⟨n1, n2, n3, _⟩ := allocate_none hal
        obtain ⟨i1, i2, i3⟩ := ih b a' rs hrun
        refine ⟨i1, fun q hq => i2 q (n1 q hq), ?_⟩
        intro r hr
        obtain ⟨j1, j2, j3⟩ := i3 r hr
        rw [n2, n3] at *
        exact ⟨j1, List.mem_cons_of_mem _ j2, j3⟩
      | some r =>
        simp only at hrun
        cases hr2 : run reqs b with
        | panic => rw [hr2] at hrun; simp at hrun
        | err => rw [hr2] at hrun; simp at hrun
        | ok v =>
          obtain ⟨rs', c⟩ := v
          rw [hr2] at hrun
          simp only [Outcome.ok.injEq, Prod.mk.injEq] at hrun
          obtain ⟨rfl, rfl⟩ := hrun
          obtain ⟨s1, s2, s3, s4, s5, s6, s7, s8, _⟩ := allocate_some hal
          obtain ⟨i1, i2, i3⟩ := ih b c rs' hr2
          refine ⟨List.pairwise_cons.2 ⟨fun q hq => i2 r s5 q hq, i1⟩, ?_, ?_⟩
          · intro q hq r' hr'
            rcases List.mem_cons.1 hr' with rfl | hr'
            · exact (s6 q hq).2
            · exact i2 q (s6 q hq).1 r' hr'
          · intro r' hr'
            rcases List.mem_cons.1 hr' with rfl | hr'
            · exact ⟨s3, by simp [s1, s2], by rw [s1] at s4 ⊢; exact s4⟩
            · obtain ⟨j1, j2, j3⟩ := i3 r' hr'
              rw [s7, s8] at *
              exact ⟨j1, List.mem_cons_of_mem _ j2, j3⟩

/-! ### Writing pixels -/

/-- The flat index determines the pixel. -/
theorem index_inj {W px py qx qy : Nat} (hp : px < W) (hq : qx < W) (h : py * W + px = qy * W + qx) :
    px = qx ∧ py = qy := by
  have h1 : (py * W + px) % W = px := by rw [Nat.add_comm, Nat.add_mul_mod_self_right, Nat.mod_eq_of_lt hp]
  have h2 : (qy * W + qx) % W = qx := by rw [Nat.add_comm, Nat.add_mul_mod_self_right, Nat.mod_eq_of_lt hq]
  have hx : px = qx := by rw [← h1, h, h2]
  subst hx
  have hW : 0 < W := by omega
  exact ⟨rfl, Nat.eq_of_mul_eq_mul_right hW (by omega)⟩

/-- Inside the atlas, row `y` of a region ends within the memory. -/
theorem row_end {W H : Nat} {r : Region} (hx : r.x + r.w ≤ W) (hy : r.y + r.h ≤ H) {y : Nat} (h : y < r.h) :
    (r.y + y) * (W * 4) + r.x * 4 + r.w * 4 ≤ W * H * 4 := by
  have h1 : (r.y + y) * W + W ≤ H * W := by
    have : (r.y + y + 1) * W ≤ H * W := Nat.mul_le_mul_right _ (by omega)
    rw [Nat.add_mul, Nat.one_mul] at this
    exact this
  have e1 : (r.y + y) * (W * 4) = (r.y + y) * W * 4 := by rw [Nat.mul_assoc]
  have e2 : W * H * 4 = H * W * 4 := by rw [Nat.mul_comm W H]
  rw [e1, e2]
  omega

/-- A byte of the memory after writing rows `0..n`. -/
theorem writeRows_get {W H : Nat} {r : Region} {src : Nat → Nat} {len : Nat} (hx : r.x + r.w ≤ W)
    (hy : r.y + r.h ≤ H) (hlen : r.w * r.h * 4 ≤ len) (mem : Nat → Nat) {px py c : Nat} (hpx : px < W) (hc : c < 4) :
    ∀ n, n ≤ r.h →
    (List.range n).foldl (writeRow W (W * H * 4) r src len) mem ((py * W + px) * 4 + c) =
      if r.x ≤ px ∧ px < r.x + r.w ∧ r.y ≤ py ∧ py < r.y + n then src (((py - r.y) * r.w + (px - r.x)) * 4 + c)
      else mem ((py * W + px) * 4 + c) := by
  intro n
  induction n with
  | zero =>
    intro _
    rw [if_neg (by omega)]
    simp
  | succ n ih =>
    intro hn
    rw [List.range_succ, List.foldl_append]
    simp only [List.foldl_cons, List.foldl_nil]
    have ih := ih (by omega)
    generalize (List.range n).foldl (writeRow W (W * H * 4) r src len) mem = m at *
    have hsrc : n * r.w * 4 + r.w * 4 ≤ len := by
      have : (n + 1) * r.w ≤ r.h * r.w := Nat.mul_le_mul_right _ hn
      rw [Nat.add_mul, Nat.one_mul, Nat.mul_comm r.h] at this
      omega
    have hdst := row_end (W := W) (H := H) (r := r) hx hy (y := n) (by omega)
    simp only [writeRow]
    rw [if_pos ⟨hsrc, hdst⟩]
    simp only [copy]
    have e1 : (r.y + n) * (W * 4) = (r.y + n) * W * 4 := by rw [Nat.mul_assoc]
    rw [e1]
    by_cases hin : r.x ≤ px ∧ px < r.x + r.w ∧ py = r.y + n
    · obtain ⟨a1, a2, rfl⟩ := hin
      rw [if_pos (by omega), if_pos (by omega)]
      congr 1
      have e3 : r.y + n - r.y = n := by omega
      rw [e3, Nat.add_mul]
      omega
    · rw [if_neg, ih]
      · by_cases hb : r.x ≤ px ∧ px < r.x + r.w ∧ r.y ≤ py ∧ py < r.y + n
        · rw [if_pos hb, if_pos (by omega)]
        · rw [if_neg hb, if_neg (by omega)]
      · rintro ⟨b1, b2⟩
        apply hin
        have b3 : (r.y + n) * W + r.x ≤ py * W + px := by omega
        have b4 : py * W + px < (r.y + n) * W + r.x + r.w := by omega
        have hpy : py = r.y + n := by
          rcases Nat.lt_trichotomy py (r.y + n) with hlt | heq | hgt
          · exfalso
            have : (py + 1) * W ≤ (r.y + n) * W := Nat.mul_le_mul_right _ hlt
            rw [Nat.add_mul, Nat.one_mul] at this
            omega
          · exact heq
          · exfalso
            have : (r.y + n + 1) * W ≤ py * W := Nat.mul_le_mul_right _ hgt
            rw [Nat.add_mul, Nat.one_mul] at this
            omega
        subst hpy
        exact ⟨by omega, by omega, rfl⟩

end Verif.Atlas
