import Verif.Spec.RenderCaches
import Verif.Lemmas.Map
/-!
# C26 — caches are bounded and never wrong
-/
namespace Verif.Props
open Verif Verif.RCache Verif.Spec.RC

variable {K V : Type} [DecidableEq K]

theorem evict_cases (n : Nat) (c : Cache K V) :
    evict n c = c ∨ ∃ k, evict n c = { c with entries := c.entries.erase k } := by
  unfold evict
  split
  · split
    · exact .inr ⟨_, rfl⟩
    · exact .inl rfl
  · exact .inl rfl

theorem evict_get (n : Nat) (c : Cache K V) (k : K) :
    RCache.get (evict n c) k = none ∨ RCache.get (evict n c) k = RCache.get c k := by
  rcases evict_cases n c with h | ⟨k', h⟩
  · rw [h]; exact .inr rfl
  · rw [h]
    simp only [RCache.get, Map.get_erase]
    split
    · exact .inl rfl
    · exact .inr rfl

theorem evict_wf {n : Nat} {c : Cache K V} (h : Map.WF c.entries) : Map.WF (evict n c).entries := by
  rcases evict_cases n c with e | ⟨k', e⟩
  · rw [e]; exact h
  · rw [e]; exact Map.wf_erase h _

/-- **C26, freshness.** Whatever was evicted in between, a lookup gives the value most recently stored
under that very key since the last clear, or a miss. -/
theorem C26_lookup_fresh (cap : Nat) (ops : List (Op K V)) (k : K) :
    RCache.get (ops.foldl apply (RCache.new cap)) k = none ∨
    RCache.get (ops.foldl apply (RCache.new cap)) k = latest k ops none := by
  suffices ∀ (ops : List (Op K V)) (c : Cache K V) (acc : Option V),
      (RCache.get c k = none ∨ RCache.get c k = acc) →
      RCache.get (ops.foldl apply c) k = none ∨ RCache.get (ops.foldl apply c) k = latest k ops acc from
    this ops _ _ (.inl rfl)
  intro ops
  induction ops with
  | nil => intro c acc h; exact h
  | cons o ops ih =>
    intro c acc h
    cases o with
    | clear => exact ih _ _ (.inl rfl)
    | put n k' v =>
      simp only [List.foldl_cons, latest]
      apply ih
      simp only [apply, RCache.get, RCache.insert, Map.get_insert]
      by_cases e : k = k'
      · subst e; simp
      · rw [if_neg (fun h => e (by first | exact h | exact h.symm)), if_neg (fun h => e h.symm)]
        rcases evict_get n c k with h1 | h1
        · exact .inl h1
        · rw [RCache.get] at h1
          rw [h1]; exact h

/-- **C26.** A value just stored is found: caching is not vacuous. -/
theorem C26_store_then_get (n : Nat) (k : K) (v : V) (c : Cache K V) :
    RCache.get (RCache.insert n k v c) k = some v := by
  simp [RCache.get, RCache.insert]

/-- **C26.** While the cache is below its capacity nothing is lost. -/
theorem C26_below_capacity (n : Nat) (k k' : K) (v : V) (c : Cache K V) (h : c.entries.length < c.cap)
    (hne : k' ≠ k) : RCache.get (RCache.insert n k v c) k' = RCache.get c k' := by
  have : evict n c = c := by unfold evict; rw [if_neg (by omega)]
  simp only [RCache.get, RCache.insert, this, Map.get_insert_ne hne]

theorem insert_bound {n : Nat} {k : K} {v : V} {c : Cache K V} (hw : Map.WF c.entries)
    (h : c.entries.length ≤ max c.cap 1) : (RCache.insert n k v c).entries.length ≤ max c.cap 1 := by
  have hle := Map.length_insert_le (evict n c).entries k v
  simp only [RCache.insert]
  by_cases hc : c.entries.length ≥ c.cap
  · cases he : c.entries with
    | nil =>
      have : (evict n c).entries.length = 0 := by
        rcases evict_cases n c with e | ⟨k', e⟩
        · rw [e, he]; rfl
        · rw [e]
          have := Map.length_erase_le c.entries k'
          rw [he] at this
          simpa [he] using this
      omega
    | cons p t =>
      have hpos : 0 < c.entries.length := by rw [he]; simp
      have hlt : n % c.entries.length < c.entries.length := Nat.mod_lt _ hpos
      have hev : (evict n c).entries.length + 1 = c.entries.length := by
        unfold evict
        rw [if_pos hc]
        have hk : firstKey n c.entries = some (c.entries[n % c.entries.length]).1 := by
          simp [firstKey, List.getElem?_eq_getElem hlt]
        rw [hk]
        exact Map.length_erase_of_some hw
          (Map.get_of_mem hw (k := (c.entries[n % c.entries.length]).1) (v := (c.entries[n % c.entries.length]).2)
            (List.getElem_mem hlt))
      omega
  · have : evict n c = c := by unfold evict; rw [if_neg hc]
    rw [this] at hle ⊢
    omega

/-- **C26, bound, partial.** The cache never holds more than its capacity, or one entry if the capacity is
zero.  Missing: capacity zero, see `C26_bounded_violated`. -/
theorem C26_bounded_partial (cap : Nat) (ops : List (Op K V)) :
    (ops.foldl apply (RCache.new cap)).entries.length ≤ max cap 1 := by
  suffices ∀ (ops : List (Op K V)) (c : Cache K V), c.cap = cap → Map.WF c.entries →
      c.entries.length ≤ max cap 1 → (ops.foldl apply c).entries.length ≤ max cap 1 from
    this ops _ rfl Map.wf_nil (by simp [RCache.new])
  intro ops
  induction ops with
  | nil => intro c _ _ h; exact h
  | cons o ops ih =>
    intro c hcap hw h
    cases o with
    | clear => exact ih _ hcap Map.wf_nil (by simp [apply, RCache.clear])
    | put n k v =>
      refine ih _ ?_ ?_ ?_
      · simp only [apply, RCache.insert]
        rcases evict_cases n c with e | ⟨k', e⟩ <;> rw [e] <;> exact hcap
      · exact Map.wf_insert (evict_wf hw) k v
      · rw [← hcap] at h ⊢
        exact insert_bound hw h

example : (List.foldl apply (RCache.new 2 : Cache Nat Nat)
    [.put 0 1 10, .put 0 2 20, .put 1 3 30, .put 0 3 31]).entries.length = 2 := by decide
example : RCache.get (List.foldl apply (RCache.new 2 : Cache Nat Nat)
    [.put 0 1 10, .put 0 2 20, .put 1 3 30, .put 0 2 21]) 2 = latest 2
    [(.put 0 1 10 : Op Nat Nat), .put 0 2 20, .put 1 3 30, .put 0 2 21] none := by decide

/-- **C26, disagreement.** A cache created with capacity 0 holds one entry. -/
theorem C26_bounded_violated :
    ¬ ∀ (cap : Nat) (ops : List (Op Nat Nat)), (ops.foldl apply (RCache.new cap)).entries.length ≤ cap := by
  intro h
  have := h 0 [.put 0 1 1]
  revert this; decide

/-- **C26, counters.** A lookup counts as a hit exactly when it returns a value, as a miss otherwise. -/
theorem C26_counters (c : Cache K V) (s : Stats) (k : K) :
    (lookup c s k).1 = RCache.get c k ∧
    (lookup c s k).2.hits + (lookup c s k).2.misses = s.hits + s.misses + 1 ∧
    ((lookup c s k).2.hits = s.hits + 1 ↔ ((lookup c s k).1).isSome) := by
  unfold lookup
  cases h : RCache.get c k with
  | none => simp; omega
  | some v => simp; omega

end Verif.Props
