import Verif.Model.Outcome
/-!
# Session memory pool — `crates/ass-editor/sessions/memory/{config,stats,pool,gc,strategy}.rs`

An arena is the number of bytes it has reserved (`Bump::allocated_bytes`).  What stays reserved after `Bump::reset` (its last
chunk) is given by the parameter `keep`.  Moments are natural numbers, `f64` ratios are exact rationals, counters do not overflow.
Features `std` and `arena` are on.
-/
namespace Verif.MemPool

/-- `MemoryPoolConfig`, config.rs lines 12-31. -/
structure Config where
  max_arena_size : Nat
  reset_threshold : Nat
  pressure_threshold : Rat
  auto_gc : Bool
  min_gc_interval : Nat
  growth_rate_threshold : Rat
deriving DecidableEq

/-- `Default for MemoryPoolConfig`, config.rs lines 33-45; the interval is in seconds. -/
def Config.default : Config := ⟨64 * 1024 * 1024, 1000, 8 / 10, true, 30, 2⟩

/-- `MemoryStats`, stats.rs lines 9-27. -/
structure Stats where
  total_allocated : Nat
  memory_in_use : Nat
  reclaimable_memory : Nat
  arena_resets : Nat
  gc_cycles : Nat
  peak_memory : Nat
deriving DecidableEq

/-- `MemoryPool`, pool.rs lines 25-49. -/
structure Pool where
  config : Config
  primary : Nat
  temp : Nat
  stats : Stats
  ops_since_reset : Nat
  last_gc : Option Nat
  memory_at_last_gc : Nat
deriving DecidableEq

/-- `MemoryPool::with_config`, pool.rs lines 58-71. -/
def Pool.new (c : Config) : Pool := ⟨c, 0, 0, ⟨0, 0, 0, 0, 0, 0⟩, 0, none, 0⟩

/-- `update_memory_stats`, gc.rs lines 85-102. -/
def updateStats (p : Pool) : Pool :=
  let m := p.primary + p.temp
  { p with stats := { p.stats with memory_in_use := m, total_allocated := m, peak_memory := if p.stats.peak_memory < m then m else p.stats.peak_memory } }

/-- `reset_primary_arena`, pool.rs lines 103-108. -/
def resetPrimary (keep : Nat → Nat) (p : Pool) : Pool :=
  updateStats { p with primary := keep p.primary, stats := { p.stats with arena_resets := p.stats.arena_resets + 1 }, ops_since_reset := 0 }

/-- `reset_temp_arena`, pool.rs lines 112-115. -/
def resetTemp (keep : Nat → Nat) (p : Pool) : Pool := updateStats { p with temp := keep p.temp }

/-- `reset_all_arenas`, pool.rs lines 119-122. -/
def resetAll (keep : Nat → Nat) (p : Pool) : Pool := resetTemp keep (resetPrimary keep p)

/-- `is_under_memory_pressure`, gc.rs lines 26-33. -/
def underPressure (p : Pool) : Bool :=
  if p.config.max_arena_size = 0 then false
  else decide (p.config.pressure_threshold < (p.stats.memory_in_use : Rat) / (p.config.max_arena_size : Rat))

/-- `should_perform_gc`, gc.rs lines 36-58. -/
def shouldGc (now : Nat) (p : Pool) : Bool :=
  if !p.config.auto_gc then false
  else if p.last_gc.any (fun t => decide (now - t < p.config.min_gc_interval)) then false
  else if 0 < p.memory_at_last_gc then decide (p.config.growth_rate_threshold < (p.stats.memory_in_use : Rat) / (p.memory_at_last_gc : Rat))
  else decide (p.config.max_arena_size / 2 < p.stats.memory_in_use)

/-- `check_reset_conditions`, gc.rs lines 14-23. -/
def checkReset (keep : Nat → Nat) (now : Nat) (p : Pool) : Pool :=
  if decide (p.config.reset_threshold ≤ p.ops_since_reset) || underPressure p || shouldGc now p then resetPrimary keep p else p

/-- `primary_arena_mut`, pool.rs lines 82-86. -/
def primaryMut (keep : Nat → Nat) (now : Nat) (p : Pool) : Pool :=
  checkReset keep now { p with ops_since_reset := p.ops_since_reset + 1 }

/-- `collect_garbage`, gc.rs lines 61-82. -/
def collect (keep : Nat → Nat) (now : Nat) (p : Pool) : Pool × Nat :=
  let before := p.stats.memory_in_use
  let q := resetTemp keep p
  let q := if underPressure q then resetPrimary keep q else q
  let q := { q with stats := { q.stats with gc_cycles := q.stats.gc_cycles + 1 }, last_gc := some now, memory_at_last_gc := q.stats.memory_in_use }
  (q, before - q.stats.memory_in_use)

/-- `force_cleanup`, gc.rs lines 105-118. -/
def force (keep : Nat → Nat) (now : Nat) (p : Pool) : Pool :=
  updateStats { resetAll keep p with ops_since_reset := 0, memory_at_last_gc := 0, last_gc := some now }

/-- `is_memory_usage_acceptable`, pool.rs lines 139-141. -/
def acceptable (p : Pool) : Bool := p.stats.memory_in_use ≤ p.config.max_arena_size

/-- `ResetStrategy`, strategy.rs lines 14-33. -/
inductive Strategy where
  | operationCount (n : Nat)
  | memoryThreshold (n : Nat)
  | timeInterval (n : Nat)
  | pressureRatio (r : Rat)
  | hybrid
  | manual
deriving DecidableEq

/-- `SmartArenaManager`, strategy.rs lines 43-53. -/
structure Manager where
  pool : Pool
  strategy : Strategy
  last_evaluation : Nat
deriving DecidableEq

/-- `SmartArenaManager::new`, strategy.rs lines 57-64. -/
def Manager.new (s : Strategy) (now : Nat) : Manager := ⟨Pool.new Config.default, s, now⟩

/-- `evaluate_reset_strategy`, strategy.rs lines 67-126. -/
def evaluate (keep : Nat → Nat) (now : Nat) (m : Manager) : Manager × Bool :=
  match m.strategy with
  | .operationCount n => if n ≤ m.pool.ops_since_reset then ({ m with pool := force keep now m.pool }, true) else (m, false)
  | .memoryThreshold n => if n ≤ m.pool.stats.memory_in_use then ({ m with pool := force keep now m.pool }, true) else (m, false)
  | .timeInterval n =>
    if n ≤ now - m.last_evaluation then ({ m with pool := force keep now m.pool, last_evaluation := now }, true) else (m, false)
  | .pressureRatio r =>
    if underPressure m.pool && decide (r ≤ (m.pool.stats.memory_in_use : Rat) / (m.pool.config.max_arena_size : Rat)) then
      ({ m with pool := force keep now m.pool }, true)
    else (m, false)
  | .hybrid =>
    if decide (1000 ≤ m.pool.ops_since_reset) || underPressure m.pool || shouldGc now m.pool then
      ({ m with pool := (collect keep now m.pool).1 }, true)
    else (m, false)
  | .manual => (m, false)

/-- What can happen to a pool: its users allocate in the arenas, and the methods are called. -/
inductive Op where
  | allocPrimary (n : Nat)
  | allocTemp (n : Nat)
  | primaryMut (now : Nat)
  | resetPrimary
  | resetTemp
  | resetAll
  | collect (now : Nat)
  | force (now : Nat)
deriving DecidableEq

/-- One step; `temp_arena_mut`, pool.rs lines 97-99, changes nothing by itself. -/
def step (keep : Nat → Nat) (p : Pool) : Op → Pool
  | .allocPrimary n => { p with primary := p.primary + n }
  | .allocTemp n => { p with temp := p.temp + n }
  | .primaryMut now => primaryMut keep now p
  | .resetPrimary => resetPrimary keep p
  | .resetTemp => resetTemp keep p
  | .resetAll => resetAll keep p
  | .collect now => (collect keep now p).1
  | .force now => force keep now p

/-- A history. -/
def run (keep : Nat → Nat) (p : Pool) (ops : List Op) : Pool := ops.foldl (step keep) p

end Verif.MemPool
