import Verif.Spec.Bench
import Verif.Props.Time
import Verif.Lemmas.Parser
/-!
# C151 — benchmarks
-/
namespace Verif.Props.Bench
open Verif Verif.Parser Verif.Ast Verif.Bench Verif.Spec Verif.Spec.Bench

/-! ## Sums, minima, maxima -/

theorem total_append (l m : List Rat) : total (l ++ m) = total l + total m := by
  induction l with
  | nil => simp [total, Rat.zero_add]
  | cons x l ih => rw [List.cons_append, total, total, ih, Rat.add_assoc]

theorem total_eq (l : List Rat) : total l = sumOf l := by
  unfold sumOf
  have : ∀ n ≤ l.length, total (l.take n) = sum (fun k => (l[k]?).getD 0) n := by
    intro n
    induction n with
    | zero => intro _; rfl
    | succ n ih =>
      intro hn
      rw [List.take_succ, total_append, ih (by omega), sum]
      obtain ⟨x, hx⟩ : ∃ x, l[n]? = some x := ⟨_, List.getElem?_eq_getElem (by omega)⟩
      rw [hx]
      simp [total, Rat.add_zero]
  have h := this l.length (Nat.le_refl _)
  rwa [List.take_length] at h

theorem average_div {l : List Rat} (h : l ≠ []) : Average l (total l / (l.length : Rat)) := by
  unfold Average
  rw [total_eq]
  have : (l.length : Rat) ≠ 0 := by
    have : l.length ≠ 0 := by simpa using h
    intro e
    exact this (by exact_mod_cast e)
  exact Rat.div_mul_cancel this

theorem least_spec (l : List Rat) : ∀ a, ∃ m, least l (some a) = some m ∧ m ≤ a ∧ (∀ t ∈ l, m ≤ t) ∧ (m = a ∨ m ∈ l) := by
  induction l with
  | nil => intro a; exact ⟨a, rfl, Rat.le_refl, by simp, Or.inl rfl⟩
  | cons x l ih =>
    intro a
    obtain ⟨m, h1, h2, h3, h4⟩ := ih (if x < a then x else a)
    refine ⟨m, h1, ?_, ?_, ?_⟩
    · split at h2 <;> grind
    · intro t ht
      rcases List.mem_cons.1 ht with rfl | ht
      · split at h2 <;> grind
      · exact h3 t ht
    · rcases h4 with h4 | h4
      · split at h4
        · exact Or.inr (h4 ▸ List.mem_cons_self)
        · exact Or.inl h4
      · exact Or.inr (List.mem_cons_of_mem _ h4)

theorem greatest_spec (l : List Rat) : ∀ a, ∃ m, greatest l (some a) = some m ∧ a ≤ m ∧ (∀ t ∈ l, t ≤ m) ∧ (m = a ∨ m ∈ l) := by
  induction l with
  | nil => intro a; exact ⟨a, rfl, Rat.le_refl, by simp, Or.inl rfl⟩
  | cons x l ih =>
    intro a
    obtain ⟨m, h1, h2, h3, h4⟩ := ih (if a < x then x else a)
    refine ⟨m, h1, ?_, ?_, ?_⟩
    · split at h2 <;> grind
    · intro t ht
      rcases List.mem_cons.1 ht with rfl | ht
      · split at h2 <;> grind
      · exact h3 t ht
    · rcases h4 with h4 | h4
      · split at h4
        · exact Or.inr (h4 ▸ List.mem_cons_self)
        · exact Or.inl h4
      · exact Or.inr (List.mem_cons_of_mem _ h4)

theorem least_none {l : List Rat} (h : l ≠ []) : ∃ m, least l none = some m ∧ m ∈ l ∧ ∀ t ∈ l, m ≤ t := by
  cases l with
  | nil => exact absurd rfl h
  | cons x l =>
    obtain ⟨m, h1, h2, h3, h4⟩ := least_spec l x
    refine ⟨m, h1, ?_, ?_⟩
    · rcases h4 with rfl | h4
      · exact List.mem_cons_self
      · exact List.mem_cons_of_mem _ h4
    · intro t ht
      rcases List.mem_cons.1 ht with rfl | ht
      · exact h2
      · exact h3 t ht

theorem greatest_none {l : List Rat} (h : l ≠ []) : ∃ m, greatest l none = some m ∧ m ∈ l ∧ ∀ t ∈ l, t ≤ m := by
  cases l with
  | nil => exact absurd rfl h
  | cons x l =>
    obtain ⟨m, h1, h2, h3, h4⟩ := greatest_spec l x
    refine ⟨m, h1, ?_, ?_⟩
    · rcases h4 with rfl | h4
      · exact List.mem_cons_self
      · exact List.mem_cons_of_mem _ h4
    · intro t ht
      rcases List.mem_cons.1 ht with rfl | ht
      · exact h2
      · exact h3 t ht

theorem total_le {l : List Rat} {b : Rat} (h : ∀ t ∈ l, t ≤ b) : total l ≤ b * (l.length : Rat) := by
  induction l with
  | nil => simp [total]
  | cons x l ih =>
    have := ih fun t ht => h t (List.mem_cons_of_mem _ ht)
    have hx := h x List.mem_cons_self
    have e : ((l.length + 1 : Nat) : Rat) = (l.length : Rat) + 1 := by simp
    rw [total, List.length_cons, e]
    grind

theorem le_total {l : List Rat} {b : Rat} (h : ∀ t ∈ l, b ≤ t) : b * (l.length : Rat) ≤ total l := by
  induction l with
  | nil => simp [total]
  | cons x l ih =>
    have := ih fun t ht => h t (List.mem_cons_of_mem _ ht)
    have hx := h x List.mem_cons_self
    have e : ((l.length + 1 : Nat) : Rat) = (l.length : Rat) + 1 := by simp
    rw [total, List.length_cons, e]
    grind

/-! ## The metrics -/

/-- Without measurements there is an error; with measurements the metrics describe them: average, smallest, largest, the root
of the average squared distance from the average, and a thousand divided by the average as the number of frames per second. -/
theorem C151_metrics (sqrt : Rat → Rat) (ts : List Rat) (mem : List Nat) :
    (ts = [] → metrics sqrt ts mem = .err) ∧ (ts ≠ [] → ∃ m, metrics sqrt ts mem = .ok m ∧ Describes sqrt ts m) := by
  constructor
  · rintro rfl; rfl
  · intro h
    obtain ⟨lo, h1, h2, h3⟩ := least_none h
    obtain ⟨hi, g1, g2, g3⟩ := greatest_none h
    have e : metrics sqrt ts mem = .ok ⟨total ts / (ts.length : Rat), lo, hi,
        sqrt (total (ts.map fun t => (t - total ts / (ts.length : Rat)) * (t - total ts / (ts.length : Rat))) / (ts.length : Rat)),
        if total ts / (ts.length : Rat) > 0 then some (1000 / (total ts / (ts.length : Rat))) else none, peak mem,
        if mem = [] then none else some (mem.sum / mem.length)⟩ := by
      unfold metrics; rw [h1, g1]
    refine ⟨_, e, ?_⟩
    · refine ⟨average_div h, ⟨h2, h3⟩, ⟨g2, g3⟩, ⟨_, ?_, rfl⟩, ?_, ?_⟩
      · have := average_div (l := ts.map fun t => (t - total ts / (ts.length : Rat)) * (t - total ts / (ts.length : Rat))) (by simpa using h)
        rw [List.length_map] at this
        exact this
      · intro hp
        dsimp only at hp ⊢
        rw [if_pos hp]
        exact ⟨_, rfl, Rat.div_mul_cancel (by intro e; rw [e] at hp; exact absurd hp (by grind))⟩
      · intro hp
        dsimp only at hp ⊢
        rw [if_neg (by grind)]

example : metrics id [2, 4, 6] [] = .ok ⟨4, 2, 6, 8 / 3, some 250, none, none⟩ := by decide +kernel

/-- The average lies between the smallest and the largest measurement. -/
theorem C151_between (sqrt : Rat → Rat) (ts : List Rat) (mem : List Nat) (m : Metrics) (h : metrics sqrt ts mem = .ok m) :
    m.min ≤ m.avg ∧ m.avg ≤ m.max := by
  have hne : ts ≠ [] := by rintro rfl; exact absurd h (by simp [metrics, least])
  obtain ⟨m', h', d⟩ := (C151_metrics sqrt ts mem).2 hne
  rw [h] at h'
  injection h' with h'
  subst h'
  obtain ⟨ha, ⟨_, h3⟩, ⟨_, g3⟩, _⟩ := d
  unfold Average at ha
  rw [← total_eq] at ha
  have l1 := le_total h3
  have l2 := total_le g3
  have hp : (0 : Rat) < (ts.length : Rat) := by
    have : 0 < ts.length := List.length_pos_iff.2 hne
    exact_mod_cast this
  rw [← ha] at l1 l2
  exact ⟨Rat.le_of_mul_le_mul_right l1 hp, Rat.le_of_mul_le_mul_right l2 hp⟩

/-- The memory figures: the largest measurement and the average rounded down, and none without measurements. -/
theorem C151_memory (sqrt : Rat → Rat) (ts : List Rat) (mem : List Nat) (m : Metrics) (h : metrics sqrt ts mem = .ok m) :
    (mem = [] → m.peakMem = none ∧ m.avgMem = none) ∧
    (mem ≠ [] → ∃ p a, m.peakMem = some p ∧ m.avgMem = some a ∧ p ∈ mem ∧ (∀ x ∈ mem, x ≤ p) ∧
      a * mem.length ≤ mem.sum ∧ mem.sum < (a + 1) * mem.length) := by
  have hp : m.peakMem = peak mem ∧ m.avgMem = if mem = [] then none else some (mem.sum / mem.length) := by
    unfold metrics at h
    split at h
    · injection h with h; subst h; exact ⟨rfl, rfl⟩
    · exact absurd h (by simp)
  rw [hp.1, hp.2]
  constructor
  · rintro rfl; exact ⟨rfl, rfl⟩
  · intro hne
    rw [if_neg hne]
    cases mem with
    | nil => exact absurd rfl hne
    | cons x l =>
      have hf : ∀ (l : List Nat) (x : Nat), (l.foldl Nat.max x = x ∨ l.foldl Nat.max x ∈ l) ∧ x ≤ l.foldl Nat.max x ∧ ∀ y ∈ l, y ≤ l.foldl Nat.max x := by
        intro l
        induction l with
        | nil => intro x; simp
        | cons y l ih =>
          intro x
          obtain ⟨h1, h2, h3⟩ := ih (Nat.max x y)
          rw [List.foldl_cons]
          have hm : x ≤ Nat.max x y ∧ y ≤ Nat.max x y ∧ (Nat.max x y = x ∨ Nat.max x y = y) :=
            ⟨Nat.le_max_left _ _, Nat.le_max_right _ _, by show max x y = x ∨ max x y = y; omega⟩
          refine ⟨?_, Nat.le_trans hm.1 h2, ?_⟩
          · rcases h1 with h1 | h1
            · rcases hm.2.2 with k | k
              · exact Or.inl (h1.trans k)
              · exact Or.inr (by rw [h1, k]; exact List.mem_cons_self)
            · exact Or.inr (List.mem_cons_of_mem _ h1)
          · intro z hz
            rcases List.mem_cons.1 hz with rfl | hz
            · exact Nat.le_trans hm.2.1 h2
            · exact h3 z hz
      obtain ⟨h1, h2, h3⟩ := hf l x
      refine ⟨_, _, rfl, rfl, ?_, ?_, Nat.div_mul_le_self _ _, ?_⟩
      · rcases h1 with h1 | h1
        · rw [h1]; exact List.mem_cons_self
        · exact List.mem_cons_of_mem _ h1
      · intro y hy
        rcases List.mem_cons.1 hy with rfl | hy
        · exact h2
        · exact h3 y hy
      · have := Nat.lt_div_mul_add (a := (x :: l).sum) (b := (x :: l).length) (by simp)
        rw [Nat.succ_mul]
        exact this

example : metrics id [2] [3, 9, 5] = .ok ⟨2, 2, 2, 0, some 500, some 9, some 5⟩ := by decide +kernel

/-! ## The moment that is measured -/

theorem timeOr0_ok {s : Str} {v : Nat} : timeOr0 s = .ok v ↔ ReadAs s v := by
  unfold timeOr0 ReadAs
  cases h : Time.parseAssTime s with
  | ok u =>
    have hu := (C02_parse_accepts_iff s u).1 h
    simp only [Outcome.ok.injEq]
    constructor
    · rintro rfl; exact Or.inl hu
    · rintro (k | ⟨_, k⟩)
      · have := (C02_parse_accepts_iff s v).2 k
        rw [h] at this
        injection this
      · exact absurd hu.1 (k u)
  | err =>
    have hu := (C02_parse_rejects_iff s).1 h
    simp only [Outcome.ok.injEq]
    constructor
    · rintro rfl; exact Or.inr ⟨rfl, fun u k => hu ⟨u, k⟩⟩
    · rintro (k | ⟨k, _⟩)
      · exact absurd ⟨v, k.1⟩ hu
      · exact k.symm
  | overflow =>
    simp only [reduceCtorEq, false_iff]
    obtain ⟨u, hu, hb⟩ := (C02_overflow_iff s).1 h
    rintro (k | ⟨_, k⟩)
    · have := (C02_parse_accepts_iff s v).2 k
      rw [h] at this
      exact absurd this (by simp)
    · exact k u hu

theorem hasText_iff {e : Event} : trim e.text ≠ [] ↔ HasText e := by
  unfold HasText
  rw [Ne, Parser.trim_eq_nil]
  constructor
  · intro h
    apply Classical.byContradiction
    intro k
    apply h
    intro c hc
    apply Classical.byContradiction
    intro hw
    exact k ⟨c, hc, fun w => hw ((SrtDoc.white_iff c).2 w)⟩
  · rintro ⟨c, hc, hw⟩ h
    exact hw ((SrtDoc.white_iff c).1 (h c hc))

theorem mem_allEvents {secs : List Section} {e : Event} : e ∈ allEvents secs ↔ InScript secs e := by
  unfold InScript
  induction secs with
  | nil => simp [allEvents]
  | cons s r ih =>
    cases s with
    | events l =>
      simp only [allEvents, List.mem_append, ih, List.mem_map, List.mem_cons, Section.events.injEq]
      constructor
      · rintro (⟨p, hp, rfl⟩ | ⟨l', sp, h, h'⟩)
        · exact ⟨l, p.2, Or.inl rfl, hp⟩
        · exact ⟨l', sp, Or.inr h, h'⟩
      · rintro ⟨l', sp, rfl | h, h'⟩
        · exact Or.inl ⟨(e, sp), h', rfl⟩
        · exact Or.inr ⟨l', sp, h, h'⟩
    | _ => simp [allEvents, ih]

theorem allEvents_append (a b : List Section) : allEvents (a ++ b) = allEvents a ++ allEvents b := by
  induction a with
  | nil => rfl
  | cons s a ih => cases s <;> simp [allEvents, ih]

theorem moment_skip {a b : List Event} (h : ∀ x ∈ a, ¬ HasText x) : moment (a ++ b) = moment b := by
  induction a with
  | nil => rfl
  | cons x a ih =>
    have hx : trim x.text = [] := Classical.byContradiction fun k => h x List.mem_cons_self (hasText_iff.1 k)
    rw [List.cons_append, moment, if_pos hx]
    exact ih fun y hy => h y (List.mem_cons_of_mem _ hy)

theorem first_split {secs : List Section} {e : Event} (h : FirstWithText secs e) :
    ∃ a b, allEvents secs = a ++ e :: b ∧ (∀ x ∈ a, ¬ HasText x) ∧ HasText e := by
  obtain ⟨a, l, m, n, span, b, rfl, rfl, h1, h2, h3⟩ := h
  refine ⟨allEvents a ++ m.map (·.1), n.map (·.1) ++ allEvents b, ?_, ?_, h1⟩
  · rw [allEvents_append, allEvents]
    simp
  · intro x hx
    rcases List.mem_append.1 hx with hx | hx
    · exact h3 x (mem_allEvents.1 hx)
    · exact h2 x hx

/-- The moment that is measured is the middle of the first event with text (rounded down), if this event does not end before it
starts; otherwise the program ends. -/
theorem C151_moment (secs : List Section) (e : Event) (s t : Nat) (h : FirstWithText secs e) (hs : ReadAs e.start s) (ht : ReadAs e.stop t) :
    (s ≤ t → representative secs = .ok ((s + t) / 2)) ∧ (t < s → representative secs = .panic) := by
  obtain ⟨a, b, e1, h1, h2⟩ := first_split h
  have : representative secs = if t < s then .panic else .ok (s + (t - s) / 2) := by
    unfold representative
    rw [e1, moment_skip h1, moment, if_neg (hasText_iff.2 h2), timeOr0_ok.2 hs, timeOr0_ok.2 ht]
  rw [this]
  constructor
  · intro k
    rw [if_neg (by omega), show s + (t - s) / 2 = (s + t) / 2 by omega]
  · intro k
    rw [if_pos k]

/-- Without any text the moment is one second. -/
theorem C151_moment_none (secs : List Section) (h : ∀ e, InScript secs e → ¬ HasText e) : representative secs = .ok 100 := by
  unfold representative
  have := moment_skip (b := []) (a := allEvents secs) fun x hx => h x (mem_allEvents.1 hx)
  rw [List.append_nil] at this
  rw [this]
  rfl

/-- An event for examples. -/
def line (kind : Kind) (start stop text : Str) : Event :=
  { kind := kind, layer := [], start := start, stop := stop, style := [], name := [], marginL := [], marginR := [], marginV := [],
    marginT := none, marginB := none, effect := [], text := text }

/-- A script with one section of these events. -/
def doc (l : List Event) : List Section := [.events (l.map fun e => (e, ⟨0, 0, 0, 0⟩))]

example : representative (doc [line .dialogue "0:00:01.00".toList "0:00:02.00".toList " ".toList,
    line .dialogue "0:00:02.00".toList "0:00:05.01".toList "Hi".toList]) = .ok 350 := by decide +kernel
example : FirstWithText (doc [line .dialogue "0:00:02.00".toList "0:00:05.01".toList "Hi".toList])
    (line .dialogue "0:00:02.00".toList "0:00:05.01".toList "Hi".toList) :=
  ⟨[], [], [], [], ⟨0, 0, 0, 0⟩, [], rfl, rfl, hasText_iff.1 (by decide), by simp, by rintro x ⟨l, sp, h, _⟩; simp at h⟩

/-- A comment counts as an event with text: a comment at the start of the script makes the benchmark measure a moment at which
nothing is shown. -/
theorem C151_comment_violated :
    representative (doc [line .comment "1:00:00.00".toList "1:00:00.00".toList "note".toList,
      line .dialogue "0:00:02.00".toList "0:00:04.00".toList "Hi".toList]) = .ok 360000 := by decide +kernel

/-- An event that ends before it starts ends the program. -/
theorem C151_backwards_violated :
    representative (doc [line .dialogue "0:00:05.00".toList "0:00:02.00".toList "Hi".toList]) = .panic ∧
    timerange (doc [line .dialogue "0:00:05.00".toList "0:00:02.00".toList "Hi".toList]) 1000 = .panic := by decide +kernel

/-! ## Benchmarks of a script -/

theorem calls_spec (r : Nat → Option Rat) (n : Nat) : ∀ k,
    ((∃ i, i < n ∧ r (k + i) = none) → calls r k n = none) ∧
    ((∀ i, i < n → r (k + i) ≠ none) → ∃ ts, calls r k n = some ts ∧ ts.length = n ∧ ∀ i, i < n → ts[i]? = r (k + i)) := by
  induction n with
  | zero => intro k; exact ⟨by rintro ⟨i, hi, _⟩; omega, fun _ => ⟨[], rfl, rfl, by intro i hi; omega⟩⟩
  | succ n ih =>
    intro k
    obtain ⟨h1, h2⟩ := ih (k + 1)
    constructor
    · rintro ⟨i, hi, hr⟩
      rw [calls]
      cases hk : r k with
      | none => rfl
      | some t =>
        dsimp only
        have : i ≠ 0 := by rintro rfl; rw [Nat.add_zero, hk] at hr; exact absurd hr (by simp)
        rw [h1 ⟨i - 1, by omega, by rw [show k + 1 + (i - 1) = k + i by omega]; exact hr⟩]
        rfl
    · intro h
      rw [calls]
      cases hk : r k with
      | none => exact absurd hk (h 0 (by omega))
      | some t =>
        obtain ⟨ts, e, hl, ht⟩ := h2 fun i hi => by rw [show k + 1 + i = k + (i + 1) by omega]; exact h (i + 1) (by omega)
        refine ⟨t :: ts, by rw [e]; rfl, by rw [List.length_cons, hl], ?_⟩
        intro i hi
        cases i with
        | zero => rw [Nat.add_zero, hk]; rfl
        | succ i =>
          rw [List.getElem?_cons_succ, ht i (by omega), show k + 1 + i = k + (i + 1) by omega]

/-- If the renderer never fails, the metrics of one resolution describe exactly the calls after the warming up, as many as
asked for. -/
theorem C151_single (sqrt : Rat → Rat) (r : Renderer) (c : Config) (secs : List Section) (name : Str) (res : Nat × Nat) (t : Nat)
    (ht : representative secs = .ok t) (hr : ∀ k, k < c.warmup + c.iterations → r res t k ≠ none) (hi : 0 < c.iterations) :
    ∃ x ts, single sqrt r c secs name res = .ok x ∧ x.resolution = res ∧ Describes sqrt ts x.perf ∧ ts.length = c.iterations ∧
      (∀ i, i < c.iterations → ts[i]? = r res t (c.warmup + i)) ∧
      x.name = name ++ "_single_".toList ++ Nat.toDigits 10 res.1 ++ 'x' :: Nat.toDigits 10 res.2 := by
  obtain ⟨w, e1, _⟩ := (calls_spec (r res t) c.warmup 0).2 fun i hi' => by rw [Nat.zero_add]; exact hr i (by omega)
  obtain ⟨ts, e2, hl, hts⟩ := (calls_spec (r res t) c.iterations c.warmup).2 fun i hi' => hr (c.warmup + i) (by omega)
  obtain ⟨m, e3, hd⟩ := (C151_metrics sqrt ts []).2 (by intro e; rw [e] at hl; simp at hl; omega)
  refine ⟨⟨label name res, res, m, none, 95 / 100⟩, ts, ?_, rfl, hd, hl, hts, rfl⟩
  unfold single
  rw [ht]
  dsimp only
  have : Verif.Bench.measure sqrt c (r res t) = .ok m := by
    unfold Verif.Bench.measure
    rw [e1]
    dsimp only
    rw [e2]
    exact e3
  rw [this]

/-- A renderer whose calls take 1, 2, 3, … milliseconds. -/
def slower : Renderer := fun _ _ k => some (k + 1 : Nat)

example : (single id slower ⟨3, 2, true, [], 0⟩ [] "t".toList (8, 6)) =
    .ok ⟨"t_single_8x6".toList, (8, 6), ⟨4, 3, 5, 2 / 3, some 250, none, none⟩, none, 95 / 100⟩ := by decide +kernel
example : representative [] = .ok 100 := rfl

theorem each_ok (sqrt : Rat → Rat) (r : Renderer) (c : Config) (secs : List Section) (name : Str) (L : List (Nat × Nat)) :
    ∀ xs, each sqrt r c secs name L = .ok xs → xs.map (·.resolution) = L ∧ ∀ x ∈ xs, single sqrt r c secs name x.resolution = .ok x := by
  induction L with
  | nil => intro xs h; injection h with h; subst h; simp
  | cons res L ih =>
    intro xs h
    rw [each] at h
    cases hs : single sqrt r c secs name res with
    | panic => rw [hs] at h; exact absurd h (by simp)
    | err => rw [hs] at h; exact absurd h (by simp)
    | ok x =>
      rw [hs] at h
      dsimp only at h
      cases he : each sqrt r c secs name L with
      | panic => rw [he] at h; exact absurd h (by simp)
      | err => rw [he] at h; exact absurd h (by simp)
      | ok ys =>
        rw [he] at h
        injection h with h
        subst h
        obtain ⟨h1, h2⟩ := ih ys he
        have hx : x.resolution = res := by
          unfold single at hs
          split at hs
          · exact absurd hs (by simp)
          · exact absurd hs (by simp)
          · split at hs
            · exact absurd hs (by simp)
            · exact absurd hs (by simp)
            · injection hs with hs; subst hs; rfl
        refine ⟨by rw [List.map_cons, h1, hx], ?_⟩
        intro y hy
        rcases List.mem_cons.1 hy with rfl | hy
        · rw [hx]; exact hs
        · exact h2 y hy

/-- A benchmark gives one result for each resolution, in their order, and stores exactly these behind the earlier ones; if it
fails anywhere nothing is stored. -/
theorem C151_history (sqrt : Rat → Rat) (r : Renderer) (c : Config) (secs : List Section) (name : Str) (history : List Result) :
    (∀ xs, (script sqrt r c secs name history).1 = .ok xs → xs.map (·.resolution) = c.resolutions ∧
      (∀ x ∈ xs, single sqrt r c secs name x.resolution = .ok x) ∧ (script sqrt r c secs name history).2 = history ++ xs) ∧
    ((∀ xs, (script sqrt r c secs name history).1 ≠ .ok xs) → (script sqrt r c secs name history).2 = history) := by
  unfold script
  cases he : each sqrt r c secs name c.resolutions with
  | ok ys =>
    dsimp only
    refine ⟨?_, fun h => absurd rfl (h ys)⟩
    intro xs h
    injection h with h
    subst h
    obtain ⟨h1, h2⟩ := each_ok sqrt r c secs name _ _ he
    exact ⟨h1, h2, rfl⟩
  | err => exact ⟨fun xs h => absurd h (by simp), fun _ => rfl⟩
  | panic => exact ⟨fun xs h => absurd h (by simp), fun _ => rfl⟩

example : ((script id slower ⟨2, 0, true, [(8, 6), (4, 3)], 0⟩ [] "t".toList []).2.map (·.resolution)) = [(8, 6), (4, 3)] := by decide +kernel

/-- The quick benchmark is the one for 1920 by 1080 with five calls after one for warming up. -/
theorem C151_quick (sqrt : Rat → Rat) (r : Renderer) (secs : List Section) (name : Str) (x : Result)
    (h : quick sqrt r secs name = .ok x) :
    x.resolution = (1920, 1080) ∧ ∃ c : Config, c.iterations = 5 ∧ c.warmup = 1 ∧ single sqrt r c secs name (1920, 1080) = .ok x := by
  unfold quick at h
  cases hs : (script sqrt r ⟨5, 1, true, [(1920, 1080)], 1000⟩ secs name []).1 with
  | err => rw [hs] at h; exact absurd h (by simp)
  | panic => rw [hs] at h; exact absurd h (by simp)
  | ok xs =>
    obtain ⟨h1, h2, _⟩ := (C151_history sqrt r ⟨5, 1, true, [(1920, 1080)], 1000⟩ secs name []).1 xs hs
    rw [hs] at h
    cases xs with
    | nil => exact absurd h (by simp)
    | cons y ys =>
      injection h with h
      subst h
      have hy : y.resolution = (1920, 1080) := by
        simp only [List.map_cons, List.cons.injEq] at h1
        exact h1.1
      exact ⟨hy, ⟨5, 1, true, [(1920, 1080)], 1000⟩, rfl, rfl, hy ▸ h2 y List.mem_cons_self⟩

example : (quick id slower [] "t".toList).isOk = true := by decide +kernel

/-- The score of compatibility is the same for every script and every renderer, as nothing is compared. -/
theorem C151_score_violated (sqrt : Rat → Rat) (r : Renderer) (c : Config) (secs : List Section) (name : Str) (res : Nat × Nat) (x : Result)
    (h : single sqrt r c secs name res = .ok x) : x.score = 95 / 100 ∧ x.ratio = none := by
  unfold single at h
  split at h
  · exact absurd h (by simp)
  · exact absurd h (by simp)
  · split at h
    · exact absurd h (by simp)
    · exact absurd h (by simp)
    · injection h with h; subst h; exact ⟨rfl, rfl⟩

/-! ## Animations -/

theorem extent_spec (L : List Event) (st : Event → Nat × Nat) (h : ∀ e ∈ L, ReadAs e.start (st e).1 ∧ ReadAs e.stop (st e).2) : ∀ m,
    ∃ lo hi, extent L m = .ok (lo, hi) ∧ lo ≤ m.1 ∧ m.2 ≤ hi ∧ (∀ e ∈ L, lo ≤ (st e).1 ∧ (st e).2 ≤ hi) ∧
      (lo = m.1 ∨ ∃ e ∈ L, lo = (st e).1) ∧ (hi = m.2 ∨ ∃ e ∈ L, hi = (st e).2) := by
  induction L with
  | nil => intro m; exact ⟨m.1, m.2, rfl, Nat.le_refl _, Nat.le_refl _, by simp, Or.inl rfl, Or.inl rfl⟩
  | cons e L ih =>
    intro m
    obtain ⟨hs, ht⟩ := h e List.mem_cons_self
    obtain ⟨lo, hi, h1, h2, h3, h4, h5, h6⟩ := ih (fun x hx => h x (List.mem_cons_of_mem _ hx)) (min m.1 (st e).1, max m.2 (st e).2)
    rw [extent, timeOr0_ok.2 hs, timeOr0_ok.2 ht]
    dsimp only at h2 h3 h5 h6 ⊢
    obtain ⟨k1, k2⟩ := Nat.le_min.1 h2
    obtain ⟨k3, k4⟩ := Nat.max_le.1 h3
    refine ⟨lo, hi, h1, k1, k3, ?_, ?_, ?_⟩
    · intro x hx
      rcases List.mem_cons.1 hx with rfl | hx
      · exact ⟨k2, k4⟩
      · exact h4 x hx
    · rcases h5 with h5 | ⟨x, hx, h5⟩
      · rcases (show lo = m.1 ∨ lo = (st e).1 by clear h4 h6 ih h; omega) with k | k
        · exact Or.inl k
        · exact Or.inr ⟨e, List.mem_cons_self, k⟩
      · exact Or.inr ⟨x, List.mem_cons_of_mem _ hx, h5⟩
    · rcases h6 with h6 | ⟨x, hx, h6⟩
      · rcases (show hi = m.2 ∨ hi = (st e).2 by clear h4 h5 ih h; omega) with k | k
        · exact Or.inl k
        · exact Or.inr ⟨e, List.mem_cons_self, k⟩
      · exact Or.inr ⟨x, List.mem_cons_of_mem _ hx, h6⟩

/-- The range of an animation: from the earliest start to the latest end of the events of the script, but no longer than asked
for.  Partial: the times must be below 2^32 − 1, and no event may start after the latest end (the program ends then). -/
theorem C151_range_partial (secs : List Section) (duration : Nat) (st : Event → Nat × Nat)
    (h : ∀ e, InScript secs e → ReadAs e.start (st e).1 ∧ ReadAs e.stop (st e).2)
    (a b : Event) (ha : InScript secs a) (hb : InScript secs b) (ha' : ∀ e, InScript secs e → (st a).1 ≤ (st e).1)
    (hb' : ∀ e, InScript secs e → (st e).2 ≤ (st b).2) (hm : (st a).1 < 4294967295) (hab : (st a).1 ≤ (st b).2) :
    timerange secs duration = .ok ((st a).1, (st a).1 + min ((st b).2 - (st a).1) duration) := by
  obtain ⟨lo, hi, h1, h2, h3, h4, h5, h6⟩ := extent_spec (allEvents secs) st (fun e he => h e (mem_allEvents.1 he)) (4294967295, 0)
  have hlo : lo = (st a).1 := by
    have l1 := (h4 a (mem_allEvents.2 ha)).1
    rcases h5 with h5 | ⟨x, hx, h5⟩
    · dsimp only at h5; clear h4 h6 h ha' hb'; omega
    · have := ha' x (mem_allEvents.1 hx); clear h4 h6 h ha' hb'; omega
  have hhi : hi = (st b).2 := by
    have l1 := (h4 b (mem_allEvents.2 hb)).2
    rcases h6 with h6 | ⟨x, hx, h6⟩
    · dsimp only at h6; clear h4 h5 h ha' hb'; omega
    · have := hb' x (mem_allEvents.1 hx); clear h4 h5 h ha' hb'; omega
  subst hlo hhi
  unfold timerange
  rw [h1]
  dsimp only
  rw [if_neg (by omega), if_neg (by omega)]

/-- Without events the animation lasts as long as asked for, from the start. -/
theorem C151_range_none (secs : List Section) (duration : Nat) (h : ∀ e, ¬ InScript secs e) : timerange secs duration = .ok (0, duration) := by
  unfold timerange
  have : allEvents secs = [] := List.eq_nil_iff_forall_not_mem.2 fun e he => h e (mem_allEvents.1 he)
  rw [this]
  rfl

example : timerange (doc [line .dialogue "0:00:02.00".toList "0:00:05.00".toList [], line .dialogue "0:00:01.00".toList "0:00:03.00".toList []]) 1000 =
    .ok (100, 500) := by decide +kernel

/-- The frames that are rendered are those at the start and every four hundredths of a second after it, as long as a whole step
fits before the end. -/
theorem C151_frames (lo hi t : Nat) (h : lo ≤ hi) : t ∈ frameTimes lo hi ↔ ∃ k, t = lo + 4 * k ∧ t + 4 ≤ hi := by
  unfold frameTimes
  simp only [List.mem_map, List.mem_range]
  constructor
  · rintro ⟨k, hk, rfl⟩; exact ⟨k, by omega, by omega⟩
  · rintro ⟨k, rfl, hk⟩; exact ⟨k, by omega, by omega⟩

/-- They are rendered in the order of time, each once. -/
theorem C151_frames_order (lo hi : Nat) : (frameTimes lo hi).Pairwise (· < ·) := by
  unfold frameTimes
  rw [List.pairwise_map]
  exact List.pairwise_lt_range.imp fun h => by omega

example : frameTimes 10 23 = [10, 14, 18] := by decide

/-- The pace of an animation: the average, and how many such frames there are in a second. -/
theorem C151_pace (ts : List Rat) (h : ts ≠ []) (hp : ∀ t ∈ ts, 0 < t) :
    ∃ a f, pace ts = (some a, some f) ∧ Average ts a ∧ f * a = 1000 := by
  have hpos : 0 < total ts / (ts.length : Rat) := by
    have hl : (0 : Rat) < (ts.length : Rat) := by
      have : 0 < ts.length := List.length_pos_iff.2 h
      exact_mod_cast this
    obtain ⟨m, _, hm, hle⟩ := least_none h
    have h1 := le_total hle
    have h2 := average_div h
    unfold Average at h2
    rw [← total_eq] at h2
    rw [← h2] at h1
    have := Rat.le_of_mul_le_mul_right h1 hl
    have := hp m hm
    grind
  refine ⟨total ts / (ts.length : Rat), 1000 / (total ts / (ts.length : Rat)), ?_, average_div h, Rat.div_mul_cancel (by intro e; rw [e] at hpos; exact absurd hpos (by grind))⟩
  unfold pace
  rw [if_neg h]
  dsimp only
  rw [if_neg (by intro e; rw [e] at hpos; exact absurd hpos (by grind))]

example : pace [10, 30] = (some 20, some 50) := by decide +kernel

/-- An animation shorter than four hundredths of a second has no frame, and the benchmark reports a success whose figures are not
numbers. -/
theorem C151_short_violated : timerange (doc [line .dialogue "0:00:02.00".toList "0:00:02.03".toList "Hi".toList]) 1000 = .ok (200, 203) ∧
    frameTimes 200 203 = [] ∧ pace [] = (none, none) := by decide +kernel

/-! ## The summary -/

theorem fastest_spec (l : List Result) : ∀ x, let m := l.foldl (fun a b => if b.perf.avg < a.perf.avg then b else a) x
    m.perf.avg ≤ x.perf.avg ∧ (∀ y ∈ l, m.perf.avg ≤ y.perf.avg) ∧
      (m = x ∨ ∃ a b, l = a ++ m :: b ∧ m.perf.avg < x.perf.avg ∧ ∀ y ∈ a, m.perf.avg < y.perf.avg) := by
  induction l with
  | nil => intro x; exact ⟨Rat.le_refl, by simp, Or.inl rfl⟩
  | cons y l ih =>
    intro x
    obtain ⟨h1, h2, h3⟩ := ih (if y.perf.avg < x.perf.avg then y else x)
    simp only [List.foldl_cons]
    generalize l.foldl (fun a b => if b.perf.avg < a.perf.avg then b else a) (if y.perf.avg < x.perf.avg then y else x) = m at h1 h2 h3
    by_cases h : y.perf.avg < x.perf.avg
    · rw [if_pos h] at h1 h3
      refine ⟨by grind, ?_, Or.inr ?_⟩
      · intro z hz
        rcases List.mem_cons.1 hz with rfl | hz
        · exact h1
        · exact h2 z hz
      · rcases h3 with rfl | ⟨a, b, rfl, k1, k2⟩
        · exact ⟨[], l, rfl, h, by simp⟩
        · refine ⟨y :: a, b, rfl, by grind, ?_⟩
          intro z hz
          rcases List.mem_cons.1 hz with rfl | hz
          · exact k1
          · exact k2 z hz
    · rw [if_neg h] at h1 h3
      refine ⟨h1, ?_, ?_⟩
      · intro z hz
        rcases List.mem_cons.1 hz with rfl | hz
        · grind
        · exact h2 z hz
      · rcases h3 with rfl | ⟨a, b, rfl, k1, k2⟩
        · exact Or.inl rfl
        · refine Or.inr ⟨y :: a, b, rfl, k1, ?_⟩
          intro z hz
          rcases List.mem_cons.1 hz with rfl | hz
          · grind
          · exact k2 z hz

theorem slowest_spec (l : List Result) : ∀ x, let m := l.foldl (fun a b => if b.perf.avg < a.perf.avg then a else b) x
    x.perf.avg ≤ m.perf.avg ∧ (∀ y ∈ l, y.perf.avg ≤ m.perf.avg) ∧
      ((m = x ∧ ∀ y ∈ l, y.perf.avg < m.perf.avg) ∨ ∃ a b, l = a ++ m :: b ∧ ∀ y ∈ b, y.perf.avg < m.perf.avg) := by
  induction l with
  | nil => intro x; exact ⟨Rat.le_refl, by simp, Or.inl ⟨rfl, by simp⟩⟩
  | cons y l ih =>
    intro x
    obtain ⟨h1, h2, h3⟩ := ih (if y.perf.avg < x.perf.avg then x else y)
    simp only [List.foldl_cons]
    generalize l.foldl (fun a b => if b.perf.avg < a.perf.avg then a else b) (if y.perf.avg < x.perf.avg then x else y) = m at h1 h2 h3
    by_cases h : y.perf.avg < x.perf.avg
    · rw [if_pos h] at h1 h3
      refine ⟨h1, ?_, ?_⟩
      · intro z hz
        rcases List.mem_cons.1 hz with rfl | hz
        · grind
        · exact h2 z hz
      · rcases h3 with ⟨rfl, k⟩ | ⟨a, b, rfl, k⟩
        · refine Or.inl ⟨rfl, ?_⟩
          intro z hz
          rcases List.mem_cons.1 hz with rfl | hz
          · exact h
          · exact k z hz
        · exact Or.inr ⟨y :: a, b, rfl, k⟩
    · rw [if_neg h] at h1 h3
      refine ⟨by grind, ?_, Or.inr ?_⟩
      · intro z hz
        rcases List.mem_cons.1 hz with rfl | hz
        · exact h1
        · exact h2 z hz
      · rcases h3 with ⟨rfl, k⟩ | ⟨a, b, rfl, k⟩
        · exact ⟨[], l, rfl, k⟩
        · exact ⟨y :: a, b, rfl, k⟩

/-- The summary of the stored results: how many there are, the average score, the name of the first of the fastest and of the
last of the slowest. -/
theorem C151_summary (h : List Result) (hne : h ≠ []) :
    (summary h).tests = h.length ∧ Average (h.map (·.score)) (summary h).score ∧
    (∃ a x b, h = a ++ x :: b ∧ (summary h).fastest = some x.name ∧ (∀ y ∈ a, x.perf.avg < y.perf.avg) ∧ ∀ y ∈ b, x.perf.avg ≤ y.perf.avg) ∧
    ∃ a x b, h = a ++ x :: b ∧ (summary h).slowest = some x.name ∧ (∀ y ∈ a, y.perf.avg ≤ x.perf.avg) ∧ ∀ y ∈ b, y.perf.avg < x.perf.avg := by
  unfold summary
  rw [if_neg hne]
  dsimp only
  have hs := average_div (l := h.map (·.score)) (by simpa using hne)
  rw [List.length_map] at hs
  refine ⟨rfl, hs, ?_, ?_⟩
  · cases h with
    | nil => exact absurd rfl hne
    | cons x l =>
      obtain ⟨h1, h2, h3⟩ := fastest_spec l x
      show ∃ a y b, _ ∧ some (l.foldl (fun a b => if b.perf.avg < a.perf.avg then b else a) x).name = _ ∧ _
      generalize l.foldl (fun a b => if b.perf.avg < a.perf.avg then b else a) x = m at h1 h2 h3
      rcases h3 with rfl | ⟨a, b, rfl, k1, k2⟩
      · exact ⟨[], m, l, rfl, rfl, by simp, h2⟩
      · refine ⟨x :: a, m, b, rfl, rfl, ?_, fun y hy => h2 y (by simp [hy])⟩
        intro y hy
        rcases List.mem_cons.1 hy with rfl | hy
        · exact k1
        · exact k2 y hy
  · cases h with
    | nil => exact absurd rfl hne
    | cons x l =>
      obtain ⟨h1, h2, h3⟩ := slowest_spec l x
      show ∃ a y b, _ ∧ some (l.foldl (fun a b => if b.perf.avg < a.perf.avg then a else b) x).name = _ ∧ _
      generalize l.foldl (fun a b => if b.perf.avg < a.perf.avg then a else b) x = m at h1 h2 h3
      rcases h3 with ⟨rfl, k⟩ | ⟨a, b, rfl, k⟩
      · exact ⟨[], m, l, rfl, rfl, by simp, k⟩
      · refine ⟨x :: a, m, b, rfl, rfl, ?_, k⟩
        intro y hy
        rcases List.mem_cons.1 hy with rfl | hy
        · exact h1
        · exact h2 y (by simp [hy])

/-- A result for examples. -/
def res (name : Str) (avg : Rat) (fps : Option Rat) : Result := ⟨name, (1, 1), ⟨avg, avg, avg, 0, fps, none, none⟩, none, 95 / 100⟩

example : (summary [res ['a'] 5 (some 200), res ['b'] 4 (some 250), res ['c'] 4 (some 250), res ['d'] 5 (some 200)]).fastest = some ['b'] ∧
    (summary [res ['a'] 5 (some 200), res ['b'] 4 (some 250), res ['c'] 4 (some 250), res ['d'] 5 (some 200)]).slowest = some ['d'] := by
  decide +kernel

/-- The average number of frames per second is that of the results if all of them have one.  Partial: see `C151_fps_violated`. -/
theorem C151_fps_partial (h : List Result) (hne : h ≠ []) (fs : List Rat) (hf : h.map (·.perf.fps) = fs.map some) :
    Average fs (summary h).fps := by
  have e : h.filterMap (·.perf.fps) = fs := by
    have : h.filterMap (·.perf.fps) = (h.map (·.perf.fps)).filterMap id := by rw [List.filterMap_map]; rfl
    rw [this, hf, List.filterMap_map]
    simp
  have hl : fs.length = h.length := by
    have := congrArg List.length hf
    simpa using this.symm
  unfold summary
  rw [if_neg hne]
  dsimp only
  rw [e, ← hl]
  exact average_div (by intro k; rw [k] at hl; exact hne (List.eq_nil_of_length_eq_zero hl.symm))

example : [res ['a'] 5 (some 200), res ['b'] 4 (some 250)].map (·.perf.fps) = [200, 250].map some := by decide +kernel

/-- A result that has no number of frames per second, as it took no time, counts as one with zero frames per second: the
average of 200 and of nothing is 100. -/
theorem C151_fps_violated : (summary [res ['a'] 5 (some 200), res ['b'] 0 none]).fps = 100 := by decide +kernel

/-- Without results the summary says so, and nothing is fastest. -/
theorem C151_summary_empty : summary [] = ⟨0, 1, 1, 0, none, none⟩ := rfl

end Verif.Props.Bench
