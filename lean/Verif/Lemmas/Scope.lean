import Verif.Model.Scope
import Verif.Spec.Scope
import Verif.Lemmas.Search
/-!
# Lemmas: searching part of a document
-/
namespace Verif.Scope
open Verif Verif.Doc Verif.Pos Verif.Spec.Scope
open Verif.Search
open Verif.Spec.Srch (lastLine firstLine Occurs)
open Verif.Index (Scope)

theorem bounds_cons (first last len : Nat) (c : Char) (s : Str) (i line start : Nat) :
    lineBounds first last len (c :: s) i line start =
      if c = '\n' then
        if line + 1 > last then (if line = first ∧ start = 0 then i else start, i)
        else lineBounds first last len s (i + c.utf8Size) (line + 1) (if line = first ∧ start = 0 then i else start)
      else lineBounds first last len s (i + c.utf8Size) line (if line = first ∧ start = 0 then i else start) := rfl

/-- Reading the lines of the region once its start is known. -/
theorem bounds_region (first last len : Nat) : ∀ (region after : Str) (i line start : Nat), start ≠ 0 →
    line + region.count '\n' ≤ last → (after = [] ∧ len = i + byteLen region ∨ after.head? = some '\n' ∧ line + region.count '\n' = last) →
    lineBounds first last len (region ++ after) i line start = (start, i + byteLen region) := by
  intro region
  induction region with
  | nil =>
    intro after i line start h0 hl ha
    rcases ha with ⟨rfl, ha⟩ | ⟨ha, he⟩
    · simp [lineBounds, ha]
    · cases after with
      | nil => simp at ha
      | cons c after =>
        simp only [List.head?_cons, Option.some.injEq] at ha
        subst ha
        simp only [List.count_nil, Nat.add_zero] at he
        rw [List.nil_append, bounds_cons, if_pos rfl, if_pos (by omega), if_neg (fun h => h0 h.2)]
        simp
  | cons c region ih =>
    intro after i line start h0 hl ha
    rw [List.cons_append, bounds_cons, if_neg (c := line = first ∧ start = 0) (fun h => h0 h.2), byteLen_cons, ← Nat.add_assoc]
    rw [byteLen_cons, ← Nat.add_assoc] at ha
    by_cases hc : c = '\n'
    · subst hc
      rw [List.count_cons_self] at hl ha
      rw [if_pos rfl, if_neg (by omega)]
      exact ih after _ _ start h0 (by omega) (ha.imp id fun h => ⟨h.1, by omega⟩)
    · rw [List.count_cons_of_ne hc] at hl ha
      rw [if_neg hc]
      exact ih after _ _ start h0 hl ha

theorem bounds_start (first last len : Nat) (s : Str) (i : Nat) (hs : s ≠ []) (hi : i ≠ 0) :
    lineBounds first last len s i first 0 = lineBounds first last len s i first i := by
  cases s with
  | nil => exact absurd rfl hs
  | cons c s =>
    rw [bounds_cons, bounds_cons, if_pos (c := first = first ∧ 0 = 0) ⟨rfl, rfl⟩, if_neg (c := first = first ∧ i = 0) (fun h => hi h.2)]

/-- Reading the lines before the region. -/
theorem bounds_before (first last len : Nat) (rest : Str) (hl : first ≤ last) : ∀ (before : Str) (i line : Nat),
    line + before.count '\n' = first → (before = [] ∨ before.getLast? = some '\n') →
    lineBounds first last len (before ++ rest) i line 0 = lineBounds first last len rest (i + byteLen before) first 0 := by
  intro before
  induction before with
  | nil => intro i line h _; simp only [List.count_nil, Nat.add_zero] at h; subst h; simp
  | cons c before ih =>
    intro i line h he
    rw [List.cons_append, bounds_cons, byteLen_cons, ← Nat.add_assoc]
    have he' : before = [] ∨ before.getLast? = some '\n' := by
      cases before with
      | nil => exact .inl rfl
      | cons d before =>
        right
        rcases he with he | he
        · cases he
        · rwa [List.getLast?_cons_cons] at he
    have hpos : 0 < (c :: before).count '\n' := by
      rcases he with he | he
      · cases he
      · exact List.count_pos_iff.2 (List.mem_of_getLast? he)
    rw [if_neg (c := line = first ∧ 0 = 0) (by rintro ⟨h', _⟩; omega)]
    by_cases hc : c = '\n'
    · subst hc
      rw [List.count_cons_self] at h
      rw [if_pos rfl, if_neg (by omega)]
      exact ih _ _ (by omega) he'
    · rw [List.count_cons_of_ne hc] at h
      rw [if_neg hc]
      exact ih _ _ h he'

theorem bounds_lines {first last : Nat} {before region after : Str} (h : LinesOf first last before region after) (h0 : 0 < first)
    (hne : region ++ after ≠ []) :
    bounds (before ++ region ++ after) (.lines first last) = (byteLen before, byteLen before + byteLen region) := by
  have hl : first ≤ last := by have := h.inside; omega
  have hb : before ≠ [] := by
    rintro rfl
    have := h.count
    simp at this; omega
  have hbl : byteLen before ≠ 0 := by
    cases before with
    | nil => exact absurd rfl hb
    | cons c s => have := Char.utf8Size_pos c; rw [byteLen_cons]; omega
  simp only [bounds]
  rw [List.append_assoc, bounds_before first last _ _ hl before 0 0 (by rw [Nat.zero_add]; exact h.count) h.start, Nat.zero_add,
    bounds_start _ _ _ _ _ hne hbl]
  refine bounds_region first last _ region after _ _ _ hbl h.inside ?_
  rcases h.stop with rfl | h
  · left; simp
  · exact .inr h

theorem map_lines {f : Char → Char} (hn : ∀ c, f c = '\n' ↔ c = '\n') {first last : Nat} {before region after : Str}
    (h : LinesOf first last before region after) : LinesOf first last (before.map f) (region.map f) (after.map f) := by
  have cnt : ∀ s : Str, (s.map f).count '\n' = s.count '\n' := by
    intro s
    induction s with
    | nil => rfl
    | cons c s ih =>
      rw [List.map_cons]
      by_cases hc : c = '\n'
      · rw [(hn c).2 hc, hc, List.count_cons_self, List.count_cons_self, ih]
      · rw [List.count_cons_of_ne hc, List.count_cons_of_ne (fun e => hc ((hn c).1 e)), ih]
  refine ⟨by rw [cnt]; exact h.count, ?_, by rw [cnt]; exact h.inside, ?_⟩
  · rcases h.start with rfl | h
    · exact .inl rfl
    · right; rw [List.getLast?_map, h]; simp [hn]
  · rcases h.stop with rfl | h
    · exact .inl rfl
    · right; rw [List.head?_map, h.1, cnt]; simp [hn, h.2]

/-- The plain search of a region. -/
theorem plain_region {f : Char → Char} (hf : ∀ c, (f c).utf8Size = c.utf8Size) {before region after : Str} {scope : Scope}
    (hb : bounds ((before ++ region ++ after).map f) scope = (byteLen before, byteLen before + byteLen region)) {p0 : Char} {pt : Str}
    (hp : (f p0).utf8Size = 1) (max : Nat) (ww : Bool) :
    plain (·.map f) (before ++ region ++ after) (p0 :: pt) scope max ww =
      .ok (limit max [] (occ f ((p0 :: pt).map f) after before region)) := by
  have hs : sliceBytes ((before ++ region ++ after).map f) (byteLen before) (byteLen before + byteLen region) = some (region.map f) := by
    rw [← byteLen_map hf before, ← byteLen_map hf region, List.map_append, List.map_append]
    exact sliceBytes_append _ _ _
  simp only [plain, hb, hs]
  have := loop_spec (f := f) hf (p0 := f p0) (pt := pt.map f) hp before after max (byteLen (region.map f) + 2) [] region []
    (by rw [byteLen_map hf]; omega) (by by_cases h : max = 0; exact .inl h; exact .inr (by simp; omega))
  simp only [List.nil_append, List.append_nil, byteLen_nil] at this
  exact this

theorem limit_nil (max : Nat) (l : List Hit) : limit max [] l = if max > 0 then l.take max else l := by
  unfold limit; simp

/-! ## Regular expressions -/

theorem regexLoop_spec (text : Str) (start max : Nat) : ∀ (ms : List (Nat × Nat)) (hs acc : List Hit),
    ms.map (fun m => mkHit text (start + m.1) (start + m.2)) = hs.map some → (max = 0 ∨ acc.length < max) →
    regexLoop text start max ms acc = .ok (limit max acc hs) := by
  intro ms
  induction ms with
  | nil =>
    intro hs acc h _
    have : hs = [] := by cases hs with | nil => rfl | cons => simp at h
    subst this
    simp [regexLoop, limit]
  | cons m ms ih =>
    intro hs acc h hm
    cases hs with
    | nil => simp at h
    | cons x hs =>
      simp only [List.map_cons, List.cons.injEq] at h
      simp only [regexLoop, h.1]
      by_cases hc : max > 0 ∧ (acc ++ [x]).length ≥ max
      · rw [if_pos hc]
        unfold limit
        rw [if_pos hc.1]
        have : max - acc.length = 1 := by have := hc.2; simp at this; omega
        rw [this]; simp
      · rw [if_neg hc, ih hs (acc ++ [x]) h.2 (by simp only [List.length_append, List.length_singleton] at hc ⊢; omega)]
        unfold limit
        by_cases h0 : max > 0
        · rw [if_pos h0, if_pos h0]
          have : max - acc.length = (max - (acc ++ [x]).length) + 1 := by
            simp only [List.length_append, List.length_singleton] at hc ⊢; omega
          rw [this]; simp
        · rw [if_neg h0, if_neg h0]; simp

theorem report_eq (a m b : Str) : report a m b = hitAt a m b := rfl

theorem regex_hits (before region after : Str) : ∀ ms : List (Nat × Nat),
    (∀ x ∈ ms, ∃ a m b, region = a ++ m ++ b ∧ x = (byteLen a, byteLen a + byteLen m)) →
    ∃ hs : List Hit, ms.map (fun m => mkHit (before ++ region ++ after) (byteLen before + m.1) (byteLen before + m.2)) = hs.map some ∧
      hs.map (fun h => (h.start, h.fin)) = ms.map (fun m => (byteLen before + m.1, byteLen before + m.2)) ∧
      ∀ h ∈ hs, ∃ a m b, region = a ++ m ++ b ∧ h = report (before ++ a) m (b ++ after) := by
  intro ms
  induction ms with
  | nil => intro _; exact ⟨[], rfl, rfl, by simp⟩
  | cons x ms ih =>
    intro h
    obtain ⟨hs, h1, h2, h3⟩ := ih fun y hy => h y (by simp [hy])
    obtain ⟨a, m, b, e1, rfl⟩ := h x (by simp)
    have hk : mkHit (before ++ region ++ after) (byteLen before + byteLen a) (byteLen before + (byteLen a + byteLen m)) =
        some (report (before ++ a) m (b ++ after)) := by
      have := mkHit_at (before ++ a) m (b ++ after)
      rw [byteLen_append, Nat.add_assoc] at this
      rw [e1, report_eq, ← this]
      congr 1
      simp
    refine ⟨report (before ++ a) m (b ++ after) :: hs, ?_, ?_, ?_⟩
    · rw [List.map_cons, List.map_cons, h1, hk]
    · rw [List.map_cons, List.map_cons, h2]
      simp [report, Nat.add_assoc]
    · intro y hy
      rcases List.mem_cons.1 hy with rfl | hy
      · exact ⟨a, m, b, e1, rfl⟩
      · exact h3 y hy

theorem replace_parts (rep : Str) : ∀ (parts : List (Str × Str)) (pre rest : Str) (d : Doc), d.text = pre ++ whole parts rest →
    ∃ d', replaceHits rep (places (byteLen pre) parts) d = (.ok (), d') ∧ d'.text = pre ++ whole (parts.map (fun p => (p.1, rep))) rest := by
  intro parts
  induction parts with
  | nil => intro pre rest d h; exact ⟨d, rfl, h⟩
  | cons p parts ih =>
    obtain ⟨g, m⟩ := p
    intro pre rest d h
    obtain ⟨d1, h1, h2⟩ := ih (pre ++ g ++ m) rest d (by rw [h]; simp [whole])
    obtain ⟨d2, d3, h3, h4, h5⟩ := replace_one d1 (pre ++ g) m (whole (parts.map fun p => (p.1, rep)) rest) rep (by rw [h2])
    refine ⟨d3, ?_, ?_⟩
    · simp only [places, replaceHits]
      have e1 : byteLen pre + byteLen g + byteLen m = byteLen (pre ++ g ++ m) := by simp [Nat.add_assoc]
      have e2 : byteLen pre + byteLen g = byteLen (pre ++ g) := by simp
      rw [e1, h1]
      simp only
      rw [e2, show byteLen (pre ++ g ++ m) = byteLen (pre ++ g) + byteLen m from byteLen_append _ _, h3]
      exact h4
    · rw [h5]; simp [whole]

end Verif.Scope
