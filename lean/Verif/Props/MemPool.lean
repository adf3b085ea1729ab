import Verif.Spec.MemPool
/-! # Session memory pool -/
namespace Verif.Props.MemPool
open Verif.MemPool
open Verif.Spec.MemPool

theorem figures_update {p : Pool} : Current (updateStats p) ∧ p.stats.peak_memory ≤ (updateStats p).stats.peak_memory ∧
    (updateStats p).stats.memory_in_use ≤ (updateStats p).stats.peak_memory ∧
    (updateStats p).stats.peak_memory ≤ max p.stats.peak_memory (reserved p) := by
  unfold updateStats
  dsimp only
  refine ⟨⟨rfl, rfl⟩, ?_, ?_, ?_⟩
  · split <;> omega
  · split <;> omega
  · unfold reserved; split <;> omega

theorem collect_cases (keep : Nat → Nat) (now : Nat) (p : Pool) :
    ∃ q, (q = resetTemp keep p ∨ q = resetPrimary keep (resetTemp keep p)) ∧
      (collect keep now p).1 = { q with stats := { q.stats with gc_cycles := q.stats.gc_cycles + 1 }, last_gc := some now, memory_at_last_gc := q.stats.memory_in_use } ∧
      (collect keep now p).2 = p.stats.memory_in_use - q.stats.memory_in_use := by
  unfold collect
  dsimp only
  split
  · exact ⟨_, .inr rfl, rfl, rfl⟩
  · exact ⟨_, .inl rfl, rfl, rfl⟩

theorem primaryMut_cases (keep : Nat → Nat) (now : Nat) (p : Pool) :
    primaryMut keep now p = { p with ops_since_reset := p.ops_since_reset + 1 } ∧ p.ops_since_reset + 1 < p.config.reset_threshold ∨
      primaryMut keep now p = resetPrimary keep { p with ops_since_reset := p.ops_since_reset + 1 } := by
  unfold primaryMut checkReset
  split
  · exact .inr rfl
  · next h =>
    simp only [Bool.or_eq_true, decide_eq_true_eq, not_or] at h
    exact .inl ⟨rfl, by omega⟩

/-- After every call that cleans or collects, the figures agree with the arenas. -/
theorem C122_current (keep : Nat → Nat) (p : Pool) (now : Nat) :
    Current (resetPrimary keep p) ∧ Current (resetTemp keep p) ∧ Current (resetAll keep p) ∧ Current (force keep now p) ∧
      Current (collect keep now p).1 := by
  refine ⟨figures_update.1, figures_update.1, figures_update.1, figures_update.1, ?_⟩
  obtain ⟨q, hq, e, _⟩ := collect_cases keep now p
  rw [e]
  rcases hq with rfl | rfl <;> exact figures_update.1

/-- What the figures say in every history, of a pool that starts empty: the memory in use is never overstated, never more than the
peak, and the same as the total. -/
theorem C122_figures (keep : Nat → Nat) (c : Config) (ops : List Op) :
    let p := run keep (Pool.new c) ops
    p.stats.memory_in_use ≤ reserved p ∧ p.stats.memory_in_use ≤ p.stats.peak_memory ∧
      p.stats.total_allocated = p.stats.memory_in_use := by
  have key : ∀ (ops : List Op) (p : Pool), p.stats.memory_in_use ≤ reserved p ∧ p.stats.memory_in_use ≤ p.stats.peak_memory ∧
      p.stats.total_allocated = p.stats.memory_in_use →
      (run keep p ops).stats.memory_in_use ≤ reserved (run keep p ops) ∧
        (run keep p ops).stats.memory_in_use ≤ (run keep p ops).stats.peak_memory ∧
        (run keep p ops).stats.total_allocated = (run keep p ops).stats.memory_in_use := by
    intro ops
    induction ops with
    | nil => intro p h; exact h
    | cons o os ih =>
      intro p h
      refine ih (step keep p o) ?_
      have up : ∀ q : Pool, (updateStats q).stats.memory_in_use ≤ reserved (updateStats q) ∧
          (updateStats q).stats.memory_in_use ≤ (updateStats q).stats.peak_memory ∧
          (updateStats q).stats.total_allocated = (updateStats q).stats.memory_in_use := by
        intro q
        have hu := figures_update (p := q)
        exact ⟨Nat.le_of_eq hu.1.1, hu.2.2.1, hu.1.2.trans hu.1.1.symm⟩
      cases o with
      | allocPrimary n => exact ⟨Nat.le_trans h.1 (by simp only [step, reserved]; omega), h.2⟩
      | allocTemp n => exact ⟨Nat.le_trans h.1 (by simp only [step, reserved]; omega), h.2⟩
      | primaryMut now =>
        show _ ∧ _ ∧ _
        simp only [step]
        rcases primaryMut_cases keep now p with ⟨e, _⟩ | e
        · rw [e]; exact h
        · rw [e]; exact up _
      | resetPrimary => exact up _
      | resetTemp => exact up _
      | resetAll => exact up _
      | force now => exact up _
      | collect now =>
        obtain ⟨q, hq, e, _⟩ := collect_cases keep now p
        simp only [step]
        rw [e]
        rcases hq with rfl | rfl <;> exact up _
  exact key ops _ ⟨Nat.le_refl _, Nat.le_refl _, rfl⟩

example : (run (fun _ => 5) (Pool.new Config.default) [.allocPrimary 700, .allocTemp 30, .resetTemp, .resetPrimary]).stats =
    ⟨10, 10, 0, 1, 0, 705⟩ := by decide +kernel

/-- The main arena is wiped exactly when the count of resets goes up, and by every call that asks for it; otherwise it keeps all that
was allocated in it. -/
theorem C122_resets (keep : Nat → Nat) (p : Pool) (o : Op) :
    ((step keep p o).stats.arena_resets = p.stats.arena_resets + 1 ∧ (step keep p o).primary = keep p.primary ∧
        (step keep p o).ops_since_reset = 0) ∨
      ((step keep p o).stats.arena_resets = p.stats.arena_resets ∧ ¬ Cleans o ∧
        (step keep p o).primary = p.primary + (match o with | .allocPrimary n => n | _ => 0)) := by
  cases o with
  | allocPrimary n => exact .inr ⟨rfl, id, rfl⟩
  | allocTemp n => exact .inr ⟨rfl, id, rfl⟩
  | primaryMut now =>
    simp only [step]
    rcases primaryMut_cases keep now p with ⟨e, _⟩ | e
    · rw [e]; exact .inr ⟨rfl, id, rfl⟩
    · rw [e]; exact .inl ⟨rfl, rfl, rfl⟩
  | resetPrimary => exact .inl ⟨rfl, rfl, rfl⟩
  | resetTemp => exact .inr ⟨rfl, id, rfl⟩
  | resetAll => exact .inl ⟨rfl, rfl, rfl⟩
  | force now => exact .inl ⟨rfl, rfl, rfl⟩
  | collect now =>
    obtain ⟨q, hq, e, _⟩ := collect_cases keep now p
    simp only [step]
    rw [e]
    rcases hq with rfl | rfl
    · exact .inr ⟨rfl, id, rfl⟩
    · exact .inl ⟨rfl, rfl, rfl⟩

theorem config_step (keep : Nat → Nat) (p : Pool) (o : Op) : (step keep p o).config = p.config := by
  cases o with
  | primaryMut now =>
    simp only [step]
    rcases primaryMut_cases keep now p with ⟨e, _⟩ | e <;> rw [e] <;> rfl
  | collect now =>
    obtain ⟨q, hq, e, _⟩ := collect_cases keep now p
    simp only [step]
    rw [e]
    rcases hq with rfl | rfl <;> rfl
  | _ => rfl

/-- In every history, the number of accesses since the last reset stays below the threshold. -/
theorem C122_threshold (keep : Nat → Nat) {c : Config} (h : 0 < c.reset_threshold) (ops : List Op) :
    (run keep (Pool.new c) ops).ops_since_reset < c.reset_threshold := by
  have key : ∀ (ops : List Op) (p : Pool), p.config = c → p.ops_since_reset < c.reset_threshold →
      (run keep p ops).ops_since_reset < c.reset_threshold := by
    intro ops
    induction ops with
    | nil => intro p _ h; exact h
    | cons o os ih =>
      intro p hc hp
      refine ih (step keep p o) (by rw [config_step, hc]) ?_
      cases o with
      | allocPrimary n => exact hp
      | allocTemp n => exact hp
      | primaryMut now =>
        simp only [step]
        rcases primaryMut_cases keep now p with ⟨e, h2⟩ | e
        · rw [e, ← hc]; exact h2
        · rw [e]; exact h
      | resetPrimary => exact h
      | resetTemp => exact hp
      | resetAll => exact h
      | force now => exact h
      | collect now =>
        obtain ⟨q, hq, e, _⟩ := collect_cases keep now p
        simp only [step]
        rw [e]
        rcases hq with rfl | rfl
        · exact hp
        · exact h
  exact key ops _ rfl h

/-- A strategy by count, or by time, cleans both arenas exactly when the count, or the time, has been reached; the manual one never
does anything.
Missing: the combined strategy and the one by pressure (`C122_hybrid_violated`, `C122_pressure_violated`), and that cleaning by
hand is possible with the manual strategy (`C122_manual_violated`). -/
theorem C122_strategies_partial (keep : Nat → Nat) (now : Nat) (m : Manager) :
    (∀ n, m.strategy = .operationCount n →
      ((evaluate keep now m).2 = true ↔ n ≤ m.pool.ops_since_reset)) ∧
    (∀ n, m.strategy = .timeInterval n →
      ((evaluate keep now m).2 = true ↔ n ≤ now - m.last_evaluation) ∧
        ((evaluate keep now m).2 = true → (evaluate keep now m).1.last_evaluation = now)) ∧
    (m.strategy = .manual → evaluate keep now m = (m, false)) ∧
    (m.strategy ≠ .hybrid → (evaluate keep now m).2 = true →
      (evaluate keep now m).1.pool.primary = keep m.pool.primary ∧ (evaluate keep now m).1.pool.temp = keep m.pool.temp ∧
        (evaluate keep now m).1.pool.ops_since_reset = 0 ∧ Current (evaluate keep now m).1.pool) ∧
    ((evaluate keep now m).2 = false → (evaluate keep now m).1 = m) := by
  obtain ⟨p, s, l⟩ := m
  have cur := (C122_current keep p now).2.2.2.1
  refine ⟨?_, ?_, ?_, ?_, ?_⟩
  · rintro n ⟨⟩
    simp only [evaluate]; split <;> simp_all
  · rintro n ⟨⟩
    simp only [evaluate]; split <;> simp_all
  · rintro ⟨⟩; rfl
  · intro hs
    cases s with
    | hybrid => exact absurd rfl hs
    | manual => intro h; cases h
    | operationCount n => simp only [evaluate]; split <;> intro h <;> first | exact ⟨rfl, rfl, rfl, cur⟩ | cases h
    | memoryThreshold n => simp only [evaluate]; split <;> intro h <;> first | exact ⟨rfl, rfl, rfl, cur⟩ | cases h
    | timeInterval n => simp only [evaluate]; split <;> intro h <;> first | exact ⟨rfl, rfl, rfl, cur⟩ | cases h
    | pressureRatio n => simp only [evaluate]; split <;> intro h <;> first | exact ⟨rfl, rfl, rfl, cur⟩ | cases h
  · cases s <;> simp only [evaluate] <;> (try split) <;> intro h <;> first | rfl | trivial | cases h

example : (evaluate (fun _ => 0) 7 ⟨{ Pool.new Config.default with ops_since_reset := 3, primary := 9 }, .operationCount 3, 0⟩).2 = true := by
  decide +kernel

/-- After a reset the usage is acceptable exactly when what the arenas have reserved is within the limit. -/
theorem C122_acceptable (keep : Nat → Nat) (p : Pool) :
    (acceptable (resetPrimary keep p) = true ↔ reserved (resetPrimary keep p) ≤ p.config.max_arena_size) ∧
    (acceptable (resetTemp keep p) = true ↔ reserved (resetTemp keep p) ≤ p.config.max_arena_size) := by
  unfold acceptable reserved
  exact ⟨decide_eq_true_iff, decide_eq_true_iff⟩

example : acceptable (resetPrimary (fun b => b) { Pool.new Config.default with primary := 64 * 1024 * 1024 }) = true ∧
    acceptable (resetPrimary (fun b => b) { Pool.new Config.default with primary := 64 * 1024 * 1024 + 1 }) = false := by decide +kernel

/-- What is allocated is not noticed until the next reset: with any amount in the arenas, the figures of a new pool are zero, it is
not under pressure, and its usage is acceptable. -/
theorem C122_unnoticed_violated (n m : Nat) :
    let p := run (fun b => b) (Pool.new Config.default) [.allocPrimary n, .allocTemp m]
    reserved p = n + m ∧ p.stats.memory_in_use = 0 ∧ underPressure p = false ∧ acceptable p = true := by
  refine ⟨?_, rfl, ?_, ?_⟩
  · simp [run, step, Pool.new, reserved]
  · exact (by decide +kernel : decide ((8 : Rat) / 10 < ((0 : Nat) : Rat) / ((64 * 1024 * 1024 : Nat) : Rat)) = false)
  · exact (by decide : decide (0 ≤ 64 * 1024 * 1024) = true)

/-- A collection that gives memory back says that it gave back none. -/
theorem C122_reclaimed_violated :
    let p := run (fun _ => 0) (Pool.new Config.default) [.allocTemp 1000000]
    (collect (fun _ => 0) 0 p).2 = 0 ∧ reserved p = 1000000 ∧ reserved (collect (fun _ => 0) 0 p).1 = 0 := by
  decide +kernel

/-- The peak before a reset is not recorded. -/
theorem C122_peak_violated :
    (run (fun _ => 0) (Pool.new Config.default) [.allocPrimary 1000000, .resetPrimary]).stats.peak_memory = 0 := by
  decide +kernel

/-- Once the memory in use is above the pressure threshold and resetting does not bring it below, as when one large chunk is kept,
every access to the main arena wipes what was allocated since the one before. -/
theorem C122_pressure_violated (now : Nat) :
    let p := run (fun b => b) (Pool.new Config.default) [.allocPrimary 64000000, .resetPrimary]
    underPressure p = true ∧ (primaryMut (fun b => b) now p).stats.arena_resets = 2 ∧
      underPressure (primaryMut (fun b => b) now p) = true ∧
      (primaryMut (fun b => b) now (primaryMut (fun b => b) now p)).stats.arena_resets = 3 := by
  have e : run (fun b => b) (Pool.new Config.default) [.allocPrimary 64000000, .resetPrimary] =
      ⟨Config.default, 64000000, 0, ⟨64000000, 64000000, 0, 1, 0, 64000000⟩, 0, none, 0⟩ := by decide +kernel
  have hp : ∀ r o, underPressure ⟨Config.default, 64000000, 0, ⟨64000000, 64000000, 0, r, 0, 64000000⟩, o, none, 0⟩ = true := by
    intro r o
    show decide ((8 : Rat) / 10 < ((64000000 : Nat) : Rat) / ((64 * 1024 * 1024 : Nat) : Rat)) = true
    decide +kernel
  have hm : ∀ r, primaryMut (fun b => b) now ⟨Config.default, 64000000, 0, ⟨64000000, 64000000, 0, r, 0, 64000000⟩, 0, none, 0⟩ =
      ⟨Config.default, 64000000, 0, ⟨64000000, 64000000, 0, r + 1, 0, 64000000⟩, 0, none, 0⟩ := by
    intro r
    unfold primaryMut checkReset
    rw [if_pos (by simp only [Bool.or_eq_true]; exact .inl (.inr (hp r 1)))]
    rfl
  dsimp only
  rw [e]
  rw [hm, hm]
  exact ⟨hp _ _, rfl, hp _ _, rfl⟩

/-- The combined strategy does not reset the count of accesses: after a thousand accesses it collects at every evaluation, although the
main arena is never reset. -/
theorem C122_hybrid_violated (keep : Nat → Nat) (now : Nat) {p : Pool} (h : 1000 ≤ p.ops_since_reset) (last : Nat) :
    (evaluate keep now ⟨p, .hybrid, last⟩).2 = true ∧
    (underPressure (resetTemp keep p) = false →
      (evaluate keep now ⟨p, .hybrid, last⟩).1.pool.primary = p.primary ∧
      (evaluate keep now ⟨p, .hybrid, last⟩).1.pool.ops_since_reset = p.ops_since_reset ∧
      (evaluate keep now ⟨p, .hybrid, last⟩).1.pool.stats.gc_cycles = p.stats.gc_cycles + 1) := by
  have hc : (decide (1000 ≤ p.ops_since_reset) || underPressure p || shouldGc now p) = true := by simp [h]
  simp only [evaluate, if_pos hc, true_and]
  intro hu
  unfold collect
  dsimp only
  rw [hu]
  exact ⟨rfl, rfl, rfl⟩

/-- The manual strategy promises never to reset, and yet the thousandth access wipes the main arena. -/
theorem C122_manual_violated :
    let p : Pool := { Pool.new Config.default with ops_since_reset := 999, primary := 50 }
    (evaluate (fun _ => 0) 0 ⟨p, .manual, 0⟩) = (⟨p, .manual, 0⟩, false) ∧ (primaryMut (fun _ => 0) 0 p).primary = 0 := by
  decide +kernel

/-- The figure for reclaimable memory is always zero. -/
theorem C122_reclaimable_violated (keep : Nat → Nat) (c : Config) (ops : List Op) :
    (run keep (Pool.new c) ops).stats.reclaimable_memory = 0 := by
  have key : ∀ (ops : List Op) (p : Pool), p.stats.reclaimable_memory = 0 → (run keep p ops).stats.reclaimable_memory = 0 := by
    intro ops
    induction ops with
    | nil => intro p h; exact h
    | cons o os ih =>
      intro p h
      refine ih (step keep p o) ?_
      cases o with
      | primaryMut now =>
        simp only [step]
        rcases primaryMut_cases keep now p with ⟨e, _⟩ | e <;> rw [e] <;> exact h
      | collect now =>
        obtain ⟨q, hq, e, _⟩ := collect_cases keep now p
        simp only [step]
        rw [e]
        rcases hq with rfl | rfl <;> exact h
      | _ => exact h
  exact key ops _ rfl

end Verif.Props.MemPool
