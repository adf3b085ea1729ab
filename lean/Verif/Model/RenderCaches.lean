import Verif.Model.Map
/-!
# Glyph, shaped-text and drawing caches — `crates/ass-renderer/src/utils/caches.rs` lines 11-84 and
`crates/ass-renderer/src/cache/mod.rs` lines 39-151

Which key `keys().next()` gives is unspecified for a hash map: the model takes a number `n` and evicts the
key at position `n` (modulo the size), so theorems for all `n` cover every iteration order.
-/
namespace Verif.RCache
open Verif

variable {K V : Type} [DecidableEq K]

/-- A bounded cache: entries and capacity (`max_entries`, `max_shaped_entries`, `max_drawing_entries`). -/
structure Cache (K V : Type) where
  entries : Map K V
  cap : Nat

/-- `HashMap::keys().next()` under iteration order `n`. -/
def firstKey (n : Nat) (m : Map K V) : Option K := (m[n % m.length]?).map (·.1)

/-- The eviction step: caches.rs lines 61-66, cache/mod.rs lines 104-110 and 131-136. -/
def evict (n : Nat) (c : Cache K V) : Cache K V :=
  if c.entries.length ≥ c.cap then
    match firstKey n c.entries with
    | some k => { c with entries := c.entries.erase k }
    | none => c
  else c

/-- `GlyphCache::insert` caches.rs lines 60-68, `store_shaped_text` and `store_drawing_path`
cache/mod.rs lines 102-139. -/
def insert (n : Nat) (k : K) (v : V) (c : Cache K V) : Cache K V :=
  { evict n c with entries := (evict n c).entries.insert k v }

/-- `get`, caches.rs lines 55-57, cache/mod.rs lines 91-99 and 118-126. -/
def get (c : Cache K V) (k : K) : Option V := c.entries.get k

/-- `clear`, caches.rs lines 71-73, cache/mod.rs lines 142-146. -/
def clear (c : Cache K V) : Cache K V := { c with entries := [] }

/-- `new`. -/
def new (cap : Nat) : Cache K V := ⟨[], cap⟩

/-- Hit, miss and eviction counters of the render cache (`CacheStats`, cache/mod.rs lines 53-65). -/
structure Stats where
  hits : Nat
  misses : Nat
  evictions : Nat
deriving DecidableEq, Repr

/-- `get_shaped_text` / `get_drawing_path` with their counters. -/
def lookup (c : Cache K V) (s : Stats) (k : K) : Option V × Stats :=
  match get c k with
  | some v => (some v, { s with hits := s.hits + 1 })
  | none => (none, { s with misses := s.misses + 1 })

end Verif.RCache
