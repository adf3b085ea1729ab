import Verif.Spec.Shape
import Verif.Lemmas.Map
/-! Property C127: where the glyphs of a text stand, and what the caches of shaping and outlines give. -/
namespace Verif.Props
open Verif
open Verif.Shape
open Verif.Spec.Shape

theorem total_cons (f : Raw → Int) (r : Raw) (rs : List Raw) : total f (r :: rs) = f r + total f rs := by
  unfold total; rw [List.map_cons, List.sum_cons]

theorem place_spec (scale : Rat) : ∀ (rs : List Raw) (cx cy : Rat),
    (place scale rs cx cy).1.length = rs.length ∧
    (place scale rs cx cy).2.1 = cx + (total (·.xAdvance) rs : Rat) * scale ∧
    (∀ i r, rs[i]? = some r → ∃ g, (place scale rs cx cy).1[i]? = some g ∧ (g.glyph = r.glyph ∧ g.cluster = r.cluster) ∧
      g.x = cx + ((total (·.xAdvance) (rs.take i) + r.xOffset : Int) : Rat) * scale ∧
      g.y = cy + ((total (·.yAdvance) (rs.take i) + r.yOffset : Int) : Rat) * scale ∧
      (g.xAdvance = (r.xAdvance : Rat) * scale ∧ g.yAdvance = (r.yAdvance : Rat) * scale)) ∧
    (∀ t, (place scale rs cx cy).1.foldl (fun t g => t + g.xAdvance) t = t + (total (·.xAdvance) rs : Rat) * scale)
  | [], cx, cy => by
    refine ⟨rfl, ?_, by simp, ?_⟩
    · simp [place, total]; grind
    · intro t; simp [place, total]; grind
  | r :: rs, cx, cy => by
    obtain ⟨h1, h2, h3, h4⟩ := place_spec scale rs (cx + r.xAdvance * scale) (cy + r.yAdvance * scale)
    refine ⟨by simp [place, h1], ?_, ?_, ?_⟩
    · rw [place]; dsimp only
      rw [h2, total_cons, Rat.intCast_add]; grind
    · intro i q hq
      rw [place]; dsimp only
      cases i with
      | zero =>
        simp only [List.getElem?_cons_zero, Option.some.injEq] at hq
        subst hq
        refine ⟨_, List.getElem?_cons_zero, ⟨rfl, rfl⟩, ?_, ?_, rfl, rfl⟩ <;> simp [total]
      | succ i =>
        rw [List.getElem?_cons_succ] at hq ⊢
        obtain ⟨g, g1, g2, g3, g4, g5⟩ := h3 i q hq
        refine ⟨g, g1, g2, ?_, ?_, g5⟩
        · rw [g3, List.take_succ_cons, total_cons]
          simp only [Rat.intCast_add]; grind
        · rw [g4, List.take_succ_cons, total_cons]
          simp only [Rat.intCast_add]; grind
    · intro t
      rw [place]; dsimp only
      rw [List.foldl_cons, h4, total_cons, Rat.intCast_add]
      dsimp only
      grind

/-- **C127.** The glyphs of a shaped text are those the shaper gave, in order; each stands where the advances of those before it end, moved
by its offset, at the size asked for; the width of the text is the sum of all advances. -/
theorem C127_positions (f : Face) (rs : List Raw) (size : Rat) :
    (shape f rs size).glyphs.length = rs.length ∧
    (∀ i r, rs[i]? = some r → ∃ g, (shape f rs size).glyphs[i]? = some g ∧ Placed (size / f.unitsPerEm) (rs.take i) r g) ∧
    (shape f rs size).width = (total (·.xAdvance) rs : Rat) * (size / f.unitsPerEm) ∧
    totalAdvance (shape f rs size) = (shape f rs size).width := by
  have hu : (metrics f).unitsPerEm = (f.unitsPerEm : Rat) := by
    unfold metrics hhea
    cases f.os2 with
    | none => rfl
    | some p => dsimp only; split <;> rfl
  obtain ⟨h1, h2, h3, h4⟩ := place_spec (size / (metrics f).unitsPerEm) rs 0 0
  rw [hu] at h1 h2 h3 h4
  have e1 : (shape f rs size).glyphs = (place (size / f.unitsPerEm) rs 0 0).1 := by unfold shape; dsimp only; rw [hu]
  have e2 : (shape f rs size).width = (place (size / f.unitsPerEm) rs 0 0).2.1 := by unfold shape; dsimp only; rw [hu]
  refine ⟨by rw [e1, h1], ?_, by rw [e2, h2]; grind, ?_⟩
  · intro i r hr
    obtain ⟨g, g1, g2, g3, g4, g5⟩ := h3 i r hr
    refine ⟨g, by rw [e1, g1], g2, ?_, ?_, g5⟩
    · rw [g3]; grind
    · rw [g4]; grind
  · unfold totalAdvance
    rw [e1, e2, h4, h2]

/-- **C127.** The metrics: the text reaches from the font's ascender above the baseline to its descender below, those of the OS/2 table
where it has them (its descender counted downwards), of hhea otherwise. -/
theorem C127_metrics (f : Face) (rs : List Raw) (size : Rat) :
    (∀ a d, f.os2 = some (a, d) → a ≠ 0 → (shape f rs size).ascent = (a.natAbs : Rat) * (size / f.unitsPerEm) ∧
      (shape f rs size).descent = -((d.natAbs : Rat) * (size / f.unitsPerEm))) ∧
    ((f.os2 = none ∨ ∃ d, f.os2 = some (0, d)) → (shape f rs size).ascent = (f.ascender : Rat) * (size / f.unitsPerEm) ∧
      (shape f rs size).descent = (f.descender : Rat) * (size / f.unitsPerEm)) ∧
    (shape f rs size).baseline = (shape f rs size).ascent ∧
    (shape f rs size).height = (shape f rs size).ascent - (shape f rs size).descent ∧ (shape f rs size).size = size := by
  refine ⟨?_, ?_, rfl, rfl, rfl⟩
  · intro a d h ha
    unfold shape metrics
    rw [h]
    dsimp only
    rw [if_pos ha]
    refine ⟨rfl, ?_⟩
    dsimp only
    grind
  · intro h
    have hm : metrics f = hhea f := by
      unfold metrics
      rcases h with h | ⟨d, h⟩ <;> rw [h]
      dsimp only
      rw [if_neg (by decide)]
    unfold shape
    rw [hm]
    exact ⟨rfl, rfl⟩

/-- The bounds found so far. -/
def Bounds (f : Face) (scale : Rat) (L : List Glyph) : Option (Rat × Rat) → Prop
  | none => ∀ g ∈ L, ∀ lo hi, ¬ Extent f scale g lo hi
  | some (a, b) => a ≤ b ∧ (∀ g ∈ L, ∀ lo hi, Extent f scale g lo hi → a ≤ lo ∧ hi ≤ b) ∧
      (∃ g ∈ L, ∃ hi, Extent f scale g a hi) ∧ (∃ g ∈ L, ∃ lo, Extent f scale g lo b)

theorem bounds_step {f : Face} {scale : Rat} (hs : 0 ≤ scale) (hb : ∀ g a b, f.bbox g = some (a, b) → a ≤ b) {L : List Glyph}
    {acc : Option (Rat × Rat)} (g : Glyph) (h : Bounds f scale L acc) : Bounds f scale (L ++ [g]) (inkStep scale f.bbox acc g) := by
  unfold inkStep
  cases hg : f.bbox (g.glyph % 65536) with
  | none =>
    dsimp only
    have hno : ∀ lo hi, ¬ Extent f scale g lo hi := by rintro lo hi ⟨a, b, h, _⟩; rw [hg] at h; simp at h
    cases acc with
    | none =>
      intro x hx lo hi
      rcases List.mem_append.1 hx with hx | hx
      · exact h x hx lo hi
      · rw [List.mem_singleton] at hx; subst hx; exact hno lo hi
    | some p =>
      obtain ⟨h0, h1, ⟨x, hx, h2⟩, ⟨y, hy, h3⟩⟩ := h
      refine ⟨h0, ?_, ⟨x, by simp [hx], h2⟩, ⟨y, by simp [hy], h3⟩⟩
      intro z hz lo hi he
      rcases List.mem_append.1 hz with hz | hz
      · exact h1 z hz lo hi he
      · rw [List.mem_singleton] at hz; subst hz; exact absurd he (hno lo hi)
  | some ab =>
    obtain ⟨a, b⟩ := ab
    have hle : g.x + (a : Rat) * scale ≤ g.x + (b : Rat) * scale := by
      have := Rat.mul_le_mul_of_nonneg_right (Rat.intCast_le_intCast.2 (hb _ _ _ hg)) hs
      grind
    have hex : Extent f scale g (g.x + a * scale) (g.x + b * scale) := ⟨a, b, hg, rfl, rfl⟩
    have hun : ∀ lo hi, Extent f scale g lo hi → lo = g.x + a * scale ∧ hi = g.x + b * scale := by
      rintro lo hi ⟨a', b', h, rfl, rfl⟩
      rw [hg] at h; cases h; exact ⟨rfl, rfl⟩
    cases acc with
    | none =>
      dsimp only
      refine ⟨hle, ?_, ⟨g, by simp, _, hex⟩, ⟨g, by simp, _, hex⟩⟩
      intro z hz lo hi he
      rcases List.mem_append.1 hz with hz | hz
      · exact absurd he (h z hz lo hi)
      · rw [List.mem_singleton] at hz; subst hz
        obtain ⟨rfl, rfl⟩ := hun lo hi he
        exact ⟨Rat.le_refl, Rat.le_refl⟩
    | some p =>
      obtain ⟨c, d⟩ := p
      obtain ⟨h0, h1, ⟨x, hx, hx2, h2⟩, ⟨y, hy, hy2, h3⟩⟩ := h
      dsimp only
      refine ⟨by grind, ?_, ?_, ?_⟩
      · intro z hz lo hi he
        rcases List.mem_append.1 hz with hz | hz
        · have := h1 z hz lo hi he
          grind
        · rw [List.mem_singleton] at hz; subst hz
          obtain ⟨rfl, rfl⟩ := hun lo hi he
          grind
      · by_cases hc : c ≤ g.x + a * scale
        · rw [show min c (g.x + a * scale) = c by grind]; exact ⟨x, by simp [hx], hx2, h2⟩
        · rw [show min c (g.x + a * scale) = g.x + a * scale by grind]; exact ⟨g, by simp, _, hex⟩
      · by_cases hc : g.x + b * scale ≤ d
        · rw [show max d (g.x + b * scale) = d by grind]; exact ⟨y, by simp [hy], hy2, h3⟩
        · rw [show max d (g.x + b * scale) = g.x + b * scale by grind]; exact ⟨g, by simp, _, hex⟩

theorem bounds_fold {f : Face} {scale : Rat} (hs : 0 ≤ scale) (hb : ∀ g a b, f.bbox g = some (a, b) → a ≤ b) :
    ∀ (gs L : List Glyph) (acc : Option (Rat × Rat)), Bounds f scale L acc → Bounds f scale (L ++ gs) (gs.foldl (inkStep scale f.bbox) acc)
  | [], L, acc, h => by simpa using h
  | g :: gs, L, acc, h => by
    have := bounds_fold hs hb gs (L ++ [g]) _ (bounds_step hs hb g h)
    rw [List.foldl_cons]
    simpa using this

/-- **C127.** The ink: it reaches exactly from the leftmost to the rightmost point of the glyphs' extents, and over the whole width if no
glyph has one.  Sizes are not negative, and the extents of the font go from left to right. -/
theorem C127_ink (f : Face) (rs : List Raw) (size : Rat) (hsize : 0 ≤ size) (hb : ∀ g a b, f.bbox g = some (a, b) → a ≤ b) :
    (∀ g ∈ (shape f rs size).glyphs, ∀ lo hi, Extent f (size / f.unitsPerEm) g lo hi →
      (shape f rs size).inkMin ≤ lo ∧ hi ≤ (shape f rs size).inkMax) ∧
    ((∃ g ∈ (shape f rs size).glyphs, ∃ lo hi, Extent f (size / f.unitsPerEm) g lo hi) →
      (∃ g ∈ (shape f rs size).glyphs, ∃ hi, Extent f (size / f.unitsPerEm) g (shape f rs size).inkMin hi) ∧
      (∃ g ∈ (shape f rs size).glyphs, ∃ lo, Extent f (size / f.unitsPerEm) g lo (shape f rs size).inkMax)) ∧
    ((¬ ∃ g ∈ (shape f rs size).glyphs, ∃ lo hi, Extent f (size / f.unitsPerEm) g lo hi) →
      (shape f rs size).inkMin = 0 ∧ (shape f rs size).inkMax = (shape f rs size).width) := by
  have hu : (metrics f).unitsPerEm = (f.unitsPerEm : Rat) := by
    unfold metrics hhea
    cases f.os2 with
    | none => rfl
    | some p => dsimp only; split <;> rfl
  have hscale : 0 ≤ size / (f.unitsPerEm : Rat) := by
    rw [Rat.div_def]
    refine Rat.mul_nonneg hsize ?_
    by_cases h : f.unitsPerEm = 0
    · rw [h]; decide +kernel
    · exact Rat.le_of_lt (Rat.inv_pos.2 (Rat.natCast_lt_natCast.2 (by omega : 0 < f.unitsPerEm)))
  have hfold := bounds_fold hscale hb (shape f rs size).glyphs [] none (by intro g hg; simp at hg)
  rw [List.nil_append] at hfold
  have hi : ((shape f rs size).inkMin, (shape f rs size).inkMax) =
      ink (size / f.unitsPerEm) f.bbox (shape f rs size).glyphs (shape f rs size).width := by unfold shape; dsimp only; rw [hu]
  unfold ink at hi
  cases hacc : (shape f rs size).glyphs.foldl (inkStep (size / f.unitsPerEm) f.bbox) none with
  | none =>
    rw [hacc] at hfold hi
    simp only [Prod.mk.injEq] at hi
    refine ⟨fun g hg lo hi he => absurd he (hfold g hg lo hi), ?_, fun _ => hi⟩
    rintro ⟨g, hg, lo, hi, he⟩
    exact absurd he (hfold g hg lo hi)
  | some p =>
    obtain ⟨a, b⟩ := p
    rw [hacc] at hfold hi
    obtain ⟨h0, h1, h2, h3⟩ := hfold
    dsimp only at hi
    rw [if_neg (by grind), Prod.mk.injEq] at hi
    rw [hi.1, hi.2]
    refine ⟨h1, fun _ => ⟨h2, h3⟩, ?_⟩
    intro hn
    obtain ⟨g, hg, hi, he⟩ := h2
    exact absurd ⟨g, hg, _, _, he⟩ hn

/-! ## The cache of shaped texts -/

/-- The cache holds what shaping gives. -/
def Right {S : Type} (run : Key → Outcome S) (cache : Map Key S) : Prop := ∀ k s, Map.get cache k = some s → run k = .ok s

theorem cached_right {S : Type} {run : Key → Outcome S} {cache : Map Key S} (h : Right run cache) (k : Key) :
    (cached run k cache).1 = run k ∧ Right run (cached run k cache).2 := by
  unfold cached
  cases hg : Map.get cache k with
  | some s => exact ⟨(h k s hg).symm, h⟩
  | none =>
    dsimp only
    cases hr : run k with
    | ok s =>
      refine ⟨rfl, ?_⟩
      dsimp only
      intro k' s' hk
      rw [Map.get_insert] at hk
      by_cases e : k' = k
      · rw [if_pos e] at hk; cases hk; rw [e, hr]
      · rw [if_neg e] at hk
        by_cases hl : 8192 ≤ cache.length
        · rw [if_pos hl] at hk; simp [Map.get] at hk
        · rw [if_neg hl] at hk; exact h k' s' hk
    | err => exact ⟨rfl, h⟩
    | panic => exact ⟨rfl, h⟩

/-- **C127, partial.** The cache of shaped texts: while the fonts are the same, every call gives what shaping the text anew would give,
whatever was shaped before and however often the cache was cleared.

Missing: calls with different fonts on one thread (where it fails, see below). -/
theorem C127_cache_partial {S : Type} (run : Key → Outcome S) (keys : List Key) : cachedAll (keys.map (fun k => (run, k))) [] = keys.map run := by
  suffices h : ∀ (keys : List Key) (cache : Map Key S), Right run cache → cachedAll (keys.map (fun k => (run, k))) cache = keys.map run from
    h keys [] (by intro k s hk; simp [Map.get] at hk)
  intro keys
  induction keys with
  | nil => intro _ _; rfl
  | cons k ks ih =>
    intro cache h
    rw [List.map_cons, List.map_cons, cachedAll]
    dsimp only
    rw [(cached_right h k).1, ih _ (cached_right h k).2]

/-- **C127.** The cache never holds more than 8192 texts. -/
theorem C127_bound {S : Type} (run : Key → Outcome S) (k : Key) (cache : Map Key S) (h : cache.length ≤ 8192) :
    (cached run k cache).2.length ≤ 8192 := by
  unfold cached
  cases Map.get cache k with
  | some s => exact h
  | none =>
    dsimp only
    cases run k with
    | ok s =>
      dsimp only
      have : ∀ m : Map Key S, (Map.insert m k s).length ≤ m.length + 1 := by
        intro m
        have := Map.length_erase_le m k
        unfold Map.insert
        simpa using this
      by_cases hl : 8192 ≤ cache.length
      · rw [if_pos hl]; exact Nat.le_trans (this []) (by simp)
      · rw [if_neg hl]; exact Nat.le_trans (this cache) (by omega)
    | err => exact h
    | panic => exact h

/-- **C127 fails** where the fonts change: the text shaped with other fonts is the one shaped with the first. -/
theorem C127_cache_violated : ∃ (before after : Key → Outcome Nat) (k : Key), before k = .ok 1 ∧ after k = .ok 2 ∧
    cachedAll [(before, k), (after, k)] [] = [.ok 1, .ok 1] :=
  ⟨fun _ => .ok 1, fun _ => .ok 2, ("Hello".toList, "Arial".toList, 20, false, false), rfl, rfl, by decide⟩

/-! ## Outlines -/

section
variable {Id File : Type} [DecidableEq Id]

theorem sizeKey_exact {size : Rat} (h : Exact size) : size = (sizeKey size : Rat) / 65536 := by
  obtain ⟨n, rfl, hn⟩ := h
  have e : (n : Rat) / 65536 * 65536 = (n : Rat) := by grind
  have : sizeKey ((n : Rat) / 65536) = n := by
    unfold sizeKey toU32
    rw [e]
    by_cases h0 : n = 0
    · subst h0; decide
    · have hpos : (0 : Rat) < (n : Rat) := Rat.natCast_lt_natCast.2 (by omega : 0 < n)
      rw [if_neg (Rat.not_le.2 hpos), ← Rat.intCast_natCast, Rat.floor_intCast]
      omega
  rw [this]

theorem moved_scaled (s dx dy : Rat) (p : Path) : moved dx dy (scaled s p) = drawn s dx dy p := by
  unfold moved scaled drawn
  rw [List.map_map]
  apply List.map_congr_left
  intro seg _
  simp

/-- The cached outlines are those of the fonts. -/
def PathsRight (parse : File → Option Face) (source : Id → Option File) (paths : Map (Id × Nat × Nat) Path) : Prop :=
  ∀ id g k p, Map.get paths (id, g, k) = some p → ∃ d f size, source id = some d ∧ parse d = some f ∧ Exact size ∧ sizeKey size = k ∧
    build f g size = some p

theorem loop_spec {parse : File → Option Face} {source : Id → Option File} {id : Id} {d : File} {f : Face} (hd : source id = some d)
    (hf : parse d = some f) {size spacing : Rat} (hs : Exact size) : ∀ (gs : List Glyph) (i : Nat) (acc : Rat) (paths : Map (Id × Nat × Nat) Path),
    acc = (i : Rat) * spacing → PathsRight parse source paths →
    Outlines f size spacing i gs (loop f id size spacing gs acc paths).1 ∧ PathsRight parse source (loop f id size spacing gs acc paths).2
  | [], i, acc, paths, _, hp => ⟨rfl, hp⟩
  | g :: gs, i, acc, paths, ha, hp => by
    rw [loop]
    dsimp only
    have hb : build f g.glyph size = if (f.bbox (g.glyph % 65536)).isSome ∧ 2 ≤ (f.outline (g.glyph % 65536)).length then
        some (scaled (size / f.unitsPerEm) (f.outline (g.glyph % 65536))) else none := by
      unfold build
      cases f.bbox (g.glyph % 65536) with
      | none => simp
      | some b =>
        dsimp only
        unfold finish
        have hl : (scaled (size / f.unitsPerEm) (f.outline (g.glyph % 65536))).length = (f.outline (g.glyph % 65536)).length := by simp [scaled]
        rw [hl]
        by_cases h : (f.outline (g.glyph % 65536)).length ≤ 1
        · rw [if_pos h, if_neg (by rintro ⟨_, h2⟩; omega)]
        · rw [if_neg h, if_pos ⟨rfl, by omega⟩]
    have hstep : (step f id size spacing g gs.isEmpty acc paths).1 = (match build f g.glyph size with
          | some p => [moved (g.x + acc) g.y p]
          | none => []) ∧
        (gs ≠ [] → (step f id size spacing g gs.isEmpty acc paths).2.1 = ((i + 1 : Nat) : Rat) * spacing) ∧
        PathsRight parse source (step f id size spacing g gs.isEmpty acc paths).2.2 := by
      have hacc : gs ≠ [] → (if gs.isEmpty = true then acc else acc + spacing) = ((i + 1 : Nat) : Rat) * spacing := by
        intro hn
        rw [if_neg (by simpa using hn), ha, Rat.natCast_add]
        grind
      unfold step
      cases hg : Map.get paths (id, g.glyph, sizeKey size) with
      | some p =>
        dsimp only
        obtain ⟨d', f', size', h1, h2, h3, h4, h5⟩ := hp _ _ _ _ hg
        rw [hd] at h1; cases h1
        rw [hf] at h2; cases h2
        have : size' = size := by rw [sizeKey_exact h3, sizeKey_exact hs, h4]
        rw [this] at h5
        rw [h5]
        exact ⟨rfl, hacc, hp⟩
      | none =>
        dsimp only
        cases hbd : build f g.glyph size with
        | none => exact ⟨rfl, hacc, hp⟩
        | some p =>
          refine ⟨rfl, hacc, ?_⟩
          intro id' g' k' p' h'
          dsimp only at h'
          rw [Map.get_insert] at h'
          by_cases e : (id', g', k') = (id, g.glyph, sizeKey size)
          · rw [if_pos e] at h'
            cases h'
            rw [Prod.mk.injEq, Prod.mk.injEq] at e
            obtain ⟨rfl, rfl, rfl⟩ := e
            exact ⟨d, f, size, hd, hf, hs, rfl, hbd⟩
          · rw [if_neg e] at h'
            exact hp _ _ _ _ h'
    obtain ⟨s1, s2, s3⟩ := hstep
    have hrest : Outlines f size spacing (i + 1) gs (loop f id size spacing gs (step f id size spacing g gs.isEmpty acc paths).2.1
          (step f id size spacing g gs.isEmpty acc paths).2.2).1 ∧
        PathsRight parse source (loop f id size spacing gs (step f id size spacing g gs.isEmpty acc paths).2.1
          (step f id size spacing g gs.isEmpty acc paths).2.2).2 := by
      cases gs with
      | nil => exact ⟨rfl, s3⟩
      | cons x gs => exact loop_spec hd hf hs (x :: gs) (i + 1) _ _ (s2 (by simp)) s3
    refine ⟨?_, hrest.2⟩
    rw [s1, hb, Outlines]
    by_cases h : (f.bbox (g.glyph % 65536)).isSome ∧ 2 ≤ (f.outline (g.glyph % 65536)).length
    · rw [if_pos h, if_pos h]
      refine ⟨_, ?_, hrest.1⟩
      dsimp only
      rw [moved_scaled, ha]
      rfl
    · rw [if_neg h, if_neg h]
      exact hrest.1

theorem render_spec {parse : File → Option Face} {source : Id → Option File} (r : Renderer Id File) (s : Shaped) (id : Id) (spacing : Rat)
    (hs : Exact s.size) (hf : ∀ i d, Map.get r.fonts i = some d → source i = some d) (hp : PathsRight parse source r.paths) :
    Given parse source s id spacing (render source parse r s id spacing).1 ∧
    (∀ i d, Map.get (render source parse r s id spacing).2.fonts i = some d → source i = some d) ∧
    PathsRight parse source (render source parse r s id spacing).2.paths := by
  unfold render
  have hfile : fileOf source r.fonts id = source id := by
    unfold fileOf
    cases h : Map.get r.fonts id with
    | some d => exact (hf id d h).symm
    | none => rfl
  dsimp only
  rw [hfile]
  unfold Given
  cases hd : source id with
  | none => exact ⟨rfl, hf, hp⟩
  | some d =>
    dsimp only [Option.bind_some]
    have hfonts : ∀ i d', Map.get (if (Map.get r.fonts id).isSome then r.fonts else Map.insert r.fonts id d) i = some d' → source i = some d' := by
      intro i d' h
      by_cases hc : (Map.get r.fonts id).isSome
      · rw [if_pos hc] at h; exact hf i d' h
      · rw [if_neg hc, Map.get_insert] at h
        by_cases e : i = id
        · rw [if_pos e] at h; cases h; rw [e, hd]
        · rw [if_neg e] at h; exact hf i d' h
    cases hparse : parse d with
    | none => exact ⟨rfl, hfonts, hp⟩
    | some f =>
      have := loop_spec hd hparse (spacing := spacing) hs s.glyphs 0 0 r.paths (by grind) hp
      exact ⟨⟨_, rfl, this.1⟩, hfonts, this.2⟩

/-- **C127, partial.** Outlines: while the fonts are the same, every text a renderer draws gets, whatever it drew before, the outlines of
its glyphs at the text's size and at their places, the letters spread by the spacing; and an error exactly where the font cannot be read.
Sizes are whole numbers of 65536ths of a pixel below 65536 pixels.

Missing: other sizes, and calls with different fonts (where it fails, see below). -/
theorem C127_outlines_partial (parse : File → Option Face) (source : Id → Option File) (cs : List (Shaped × Id × Rat))
    (hs : ∀ c ∈ cs, Exact c.1.size) :
    AllGiven parse source cs (renderAll parse (cs.map (fun c => (source, c))) ⟨[], []⟩) := by
  suffices h : ∀ (cs : List (Shaped × Id × Rat)) (r : Renderer Id File), (∀ c ∈ cs, Exact c.1.size) →
      (∀ i d, Map.get r.fonts i = some d → source i = some d) → PathsRight parse source r.paths →
      AllGiven parse source cs (renderAll parse (cs.map (fun c => (source, c))) r) from
    h cs ⟨[], []⟩ hs (by intro i d h; simp [Map.get] at h) (by intro i g k p h; simp [Map.get] at h)
  intro cs
  induction cs with
  | nil => intro _ _ _ _; rfl
  | cons c cs ih =>
    intro r hs hf hp
    obtain ⟨h1, h2, h3⟩ := render_spec r c.1 c.2.1 c.2.2 (hs c (by simp)) hf hp
    rw [List.map_cons, renderAll]
    exact ⟨_, _, rfl, h1, ih _ (fun x hx => hs x (by simp [hx])) h2 h3⟩

end

/-- The example: a font of 1000 units with a box for glyph 1 and nothing for glyph 3. -/
def boxFace (n : Nat) : Face where
  unitsPerEm := 1000
  os2 := some (900, -200)
  ascender := 800
  descender := -250
  lineGap := 0
  bbox g := if g = 1 then some (50, 450) else none
  outline g := if g = 1 then [[(50, 0)], [((450 + n : Nat), 500)], []] else []

/-- Two boxes with a blank between them. -/
def boxes : List Raw := [⟨1, 0, 0, 0, 500, 0⟩, ⟨3, 1, 0, 0, 250, 0⟩, ⟨1, 2, 10, 0, 500, 0⟩]

example : (shape (boxFace 0) boxes 20).width = 25 ∧ (shape (boxFace 0) boxes 20).inkMin = 1 ∧ (shape (boxFace 0) boxes 20).inkMax = 242 / 10 ∧
    (shape (boxFace 0) boxes 20).height = 22 ∧ (shape (boxFace 0) boxes 20).baseline = 18 := by decide +kernel

example : renderAll (Id := Nat) (File := Nat) (fun n => some (boxFace n))
    [(fun _ => some 0, shape (boxFace 0) boxes 20, 7, 2), (fun _ => some 0, shape (boxFace 0) boxes 20, 7, 0)] ⟨[], []⟩ =
    [.ok [[[(1, 0)], [(9, -10)], []], [[(1 + 152 / 10 + 4, 0)], [(9 + 152 / 10 + 4, -10)], []]],
     .ok [[[(1, 0)], [(9, -10)], []], [[(1 + 152 / 10, 0)], [(9 + 152 / 10, -10)], []]]] := by decide +kernel

example : Exact 20 := ⟨1310720, by decide +kernel, by decide⟩

/-- **C127 fails** for huge sizes: after a text of 65536 pixels one of 131072 has letters half as large as it should. -/
theorem C127_size_violated : ∃ (parse : Nat → Option Face) (source : Nat → Option Nat) (small large : Shaped) (a b : List Path),
    renderAll parse [(source, large, 7, 0)] ⟨[], []⟩ = [.ok a] ∧
    renderAll parse [(source, small, 7, 0), (source, large, 7, 0)] ⟨[], []⟩ = [.ok b, .ok b] ∧ a ≠ b ∧
    small.size = 65536 ∧ large.size = 131072 :=
  ⟨fun n => some (boxFace n), fun _ => some 0, shape (boxFace 0) [⟨1, 0, 0, 0, 500, 0⟩] 65536, shape (boxFace 0) [⟨1, 0, 0, 0, 500, 0⟩] 131072,
    drawn 131072 0 0 [[(5 / 100, 0)], [(45 / 100, 5 / 10)], []] :: [], drawn 65536 0 0 [[(5 / 100, 0)], [(45 / 100, 5 / 10)], []] :: [],
    by decide +kernel, by decide +kernel, by decide +kernel, by decide +kernel, by decide +kernel⟩

/-- **C127 fails** where the fonts change: a font of another database with the same number is drawn with the glyphs of the first. -/
theorem C127_font_violated : ∃ (parse : Nat → Option Face) (first second : Nat → Option Nat) (s : Shaped) (a b : List Path),
    renderAll parse [(second, s, 7, 0)] ⟨[], []⟩ = [.ok b] ∧
    renderAll parse [(first, s, 7, 0), (second, s, 7, 0)] ⟨[], []⟩ = [.ok a, .ok a] ∧ a ≠ b :=
  ⟨fun n => some (boxFace n), fun _ => some 0, fun _ => some 100, shape (boxFace 0) [⟨1, 0, 0, 0, 500, 0⟩] 20,
    [[[(1, 0)], [(9, -10)], []]], [[[(1, 0)], [(11, -10)], []]], by decide +kernel, by decide +kernel, by decide +kernel⟩

end Verif.Props
