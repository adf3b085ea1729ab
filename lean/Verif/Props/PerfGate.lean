import Verif.Spec.PerfGate
import Verif.Lemmas.StrX
/-!
# C174 — the check of benchmark results fails just when a benchmark is too slow
-/
namespace Verif.Props.PerfGate
open Verif Verif.PerfGate Verif.Spec.PerfGate

theorem take_until (e r : Str) (h1 : ',' ∉ e) (h2 : '}' ∉ e) (hr : r = [] ∨ ∃ t, r = ',' :: t ∨ r = '}' :: t) :
    (e ++ r).takeWhile (fun x => x ≠ ',' && x ≠ '}') = e := by
  induction e with
  | nil =>
    rcases hr with rfl | ⟨t, rfl | rfl⟩
    · rfl
    · simp
    · simp
  | cons c e ih =>
    have hc : c ≠ ',' ∧ c ≠ '}' := ⟨fun h => h1 (by simp [h]), fun h => h2 (by simp [h])⟩
    rw [List.cons_append, List.takeWhile_cons, if_pos (by simp [hc.1, hc.2]), ih (fun h => h1 (by simp [h])) (fun h => h2 (by simp [h]))]

theorem take_parts (c : Str) : ∃ r, c = c.takeWhile (fun x => x ≠ ',' && x ≠ '}') ++ r ∧
    ',' ∉ c.takeWhile (fun x => x ≠ ',' && x ≠ '}') ∧ '}' ∉ c.takeWhile (fun x => x ≠ ',' && x ≠ '}') ∧
    (r = [] ∨ ∃ t, r = ',' :: t ∨ r = '}' :: t) := by
  induction c with
  | nil => exact ⟨[], by simp⟩
  | cons a c ih =>
    obtain ⟨r, h1, h2, h3, h4⟩ := ih
    rw [List.takeWhile_cons]
    split
    · next h =>
      simp only [ne_eq, Bool.and_eq_true, decide_eq_true_eq] at h
      refine ⟨r, by rw [List.cons_append, ← h1], ?_, ?_, h4⟩
      · intro hm
        rcases List.mem_cons.1 hm with e | e
        · exact h.1 e.symm
        · exact h2 e
      · intro hm
        rcases List.mem_cons.1 hm with e | e
        · exact h.2 e.symm
        · exact h3 e
    · next h =>
      refine ⟨a :: c, rfl, by simp, by simp, Or.inr ⟨c, ?_⟩⟩
      by_cases ha : a = ','
      · exact Or.inl (by rw [ha])
      · by_cases hb : a = '}'
        · exact Or.inr (by rw [hb])
        · exact absurd (by simp [ha, hb]) h

/-- **C174.** The number taken from a file is what follows the key, up to the next comma or brace. -/
theorem C174_estimate (key content e : Str) : estimate key content = some e ↔ Estimate key content e := by
  constructor
  · intro h
    unfold estimate at h
    split at h
    · cases h
    · next x b hx =>
      split at h
      · cases h
      · next y c hy =>
        cases h
        obtain ⟨e1, f1⟩ := splitOnceStr_some hx
        obtain ⟨e2, f2⟩ := splitOnceStr_some hy
        obtain ⟨r, h1, h2, h3, h4⟩ := take_parts c
        refine ⟨x, b, y, r, e1, ?_, ?_, ?_, h2, h3, h4⟩
        · rw [e1] at f1; exact f1
        · rw [← h1]; exact e2
        · rw [← h1]; rw [e2] at f2; exact f2
  · rintro ⟨x, b, y, r, rfl, f1, e2, f2, h2, h3, h4⟩
    unfold estimate
    rw [splitOnceStr_first f1]
    change key ++ b = y ++ point ++ (e ++ r) at e2
    have f2 : ∀ a' b', y ++ point ++ (e ++ r) = a' ++ point ++ b' → y.length ≤ a'.length := f2
    simp only
    rw [e2, splitOnceStr_first f2]
    simp only
    rw [take_until e r h2 h3 h4]

example : estimate "\"mean\":{".toList "{\"mean\":{\"lower\":1,\"point_estimate\":4.5,\"upper\":6},\"median\":{\"point_estimate\":3}}".toList = some "4.5".toList := by
  decide +kernel

theorem targets_gen (p : Str → Bool) (g : Rat → Rat) (rs : List (Str × Rat)) (a : Analysis) (b : Analysis)
    (hb : b = rs.foldl (fun a r => if p r.1 then
      if g r.2 > 5 then { a with targets := a.targets ++ [(r.1, g r.2)] } else { a with within := a.within ++ [(r.1, g r.2)] }
      else a) a) :
    b.regressions = a.regressions ∧ b.improvements = a.improvements ∧
    (b.targets = [] ↔ a.targets = [] ∧ ∀ r ∈ rs, p r.1 = true → ¬ g r.2 > 5) := by
  induction rs generalizing a with
  | nil => subst hb; simp
  | cons r rs ih =>
    rw [List.foldl_cons] at hb
    obtain ⟨h1, h2, h3⟩ := ih _ hb
    rw [h1, h2, h3]
    by_cases hc : p r.1 = true
    · by_cases hs : g r.2 > 5
      · simp only [hc, hs, if_true]
        refine ⟨trivial, trivial, ?_⟩
        constructor
        · intro h; exact absurd h.1 (by simp)
        · intro h; exact absurd hs (h.2 r (by simp) hc)
      · simp only [hc, hs, if_true, if_false]
        refine ⟨trivial, trivial, ?_⟩
        simp only [List.mem_cons, forall_eq_or_imp]
        exact ⟨fun h => ⟨h.1, fun _ => hs, h.2⟩, fun h => ⟨h.1, h.2.2⟩⟩
    · rw [if_neg hc]
      refine ⟨rfl, rfl, ?_⟩
      simp only [List.mem_cons, forall_eq_or_imp]
      exact ⟨fun h => ⟨h.1, fun h' => absurd h' hc, h.2⟩, fun h => ⟨h.1, h.2.2⟩⟩

theorem targets_fold (rs : List (Str × Rat)) (a : Analysis) :
    (analyzeTargets rs a).regressions = a.regressions ∧ (analyzeTargets rs a).improvements = a.improvements ∧
    ((analyzeTargets rs a).targets = [] ↔ a.targets = [] ∧ ∀ r ∈ rs, containsStr "incremental".toList r.1 = true → ¬ r.2 / 1000000 > 5) :=
  targets_gen (containsStr "incremental".toList) (fun x => x / 1000000) rs a _ rfl

theorem three (p q : Str × Rat → Bool) (l : List (Str × Rat)) :
    (l.filter fun c => p c && q c).length + (l.filter fun c => p c && !q c).length + (l.filter fun c => !p c).length = l.length := by
  induction l with
  | nil => rfl
  | cons c l ih =>
    cases hp : p c <;> cases hq : q c <;> simp only [List.filter_cons, hp, hq] <;> simp <;> omega

/-- What each comparison adds. -/
theorem regress_fold (cs : List (Str × Rat)) (a : Analysis) :
    (analyzeRegressions cs a).regressions = a.regressions ++ cs.filter (fun c => abs c.2 > 10 && c.2 > 0) ∧
    (analyzeRegressions cs a).improvements = a.improvements ++ (cs.filter (fun c => abs c.2 > 10 && !(c.2 > 0))).map (fun c => (c.1, abs c.2)) ∧
    (analyzeRegressions cs a).within = a.within ++ cs.filter (fun c => !(abs c.2 > 10)) ∧
    (analyzeRegressions cs a).targets = a.targets := by
  induction cs generalizing a with
  | nil => simp [analyzeRegressions]
  | cons c cs ih =>
    have step : analyzeRegressions (c :: cs) a = analyzeRegressions cs (if abs c.2 > 10 then
      if c.2 > 0 then { a with regressions := a.regressions ++ [c] } else { a with improvements := a.improvements ++ [(c.1, abs c.2)] }
      else { a with within := a.within ++ [c] }) := rfl
    rw [step]
    obtain ⟨h1, h2, h3, h4⟩ := ih (if abs c.2 > 10 then
      if c.2 > 0 then { a with regressions := a.regressions ++ [c] } else { a with improvements := a.improvements ++ [(c.1, abs c.2)] }
      else { a with within := a.within ++ [c] })
    rw [h1, h2, h3, h4]
    by_cases hs : abs c.2 > 10
    · by_cases hp : c.2 > 0
      · simp [hs, hp]
      · simp [hs, hp]
    · simp [hs]

theorem abs_pos {x : Rat} : (abs x > 10 ∧ x > 0) ↔ x > 10 := by unfold abs; split <;> grind

theorem abs_neg {x : Rat} : (abs x > 10 ∧ ¬ x > 0) ↔ x < -10 := by unfold abs; split <;> grind

theorem abs_in {x : Rat} : ¬ abs x > 10 ↔ -10 ≤ x ∧ x ≤ 10 := by unfold abs; split <;> grind

/-- **C174.** Every comparison is told once: as slower if it is by more than ten percent, as faster, by how much, if it is by more than ten percent, and
as unchanged otherwise. -/
theorem C174_told (cs : List (Str × Rat)) :
    (∀ n x, (n, x) ∈ (analyzeRegressions cs {}).regressions ↔ (n, x) ∈ cs ∧ 10 < x) ∧
    (∀ n x, (n, x) ∈ (analyzeRegressions cs {}).improvements ↔ (n, -x) ∈ cs ∧ 10 < x) ∧
    (∀ n x, (n, x) ∈ (analyzeRegressions cs {}).within ↔ (n, x) ∈ cs ∧ -10 ≤ x ∧ x ≤ 10) ∧
    (analyzeRegressions cs {}).regressions.length + (analyzeRegressions cs {}).improvements.length + (analyzeRegressions cs {}).within.length = cs.length := by
  obtain ⟨h1, h2, h3, _⟩ := regress_fold cs {}
  rw [h1, h2, h3]
  refine ⟨?_, ?_, ?_, ?_⟩
  · intro n x
    simp only [List.nil_append, List.mem_filter, Bool.and_eq_true, decide_eq_true_eq]
    rw [abs_pos]
  · intro n x
    simp only [List.nil_append, List.mem_map, List.mem_filter, Bool.and_eq_true, decide_eq_true_eq, Bool.not_eq_true', decide_eq_false_iff_not]
    constructor
    · rintro ⟨⟨m, y⟩, ⟨hm, hy⟩, e⟩
      have hy := abs_neg.1 hy
      obtain ⟨e1, e2⟩ := Prod.mk.inj e
      simp only at e1 e2 hy
      have : x = -y := by rw [← e2]; unfold abs; split <;> grind
      subst e1 this
      rw [Rat.neg_neg]
      exact ⟨hm, by grind⟩
    · rintro ⟨hm, hx⟩
      refine ⟨(n, -x), ⟨hm, abs_neg.2 (by grind)⟩, ?_⟩
      have : abs (-x) = x := by unfold abs; split <;> grind
      simp only [this]
  · intro n x
    simp only [List.nil_append, List.mem_filter, Bool.not_eq_true', decide_eq_false_iff_not]
    rw [abs_in]
  · simp only [List.nil_append, List.length_map]
    exact three (fun c => decide (abs c.2 > 10)) (fun c => decide (c.2 > 0)) cs

example : ((analyzeRegressions [("a".toList, 12), ("b".toList, -30), ("c".toList, 10)] {}).regressions,
    (analyzeRegressions [("a".toList, 12), ("b".toList, -30), ("c".toList, 10)] {}).improvements) = ([("a".toList, 12)], [("b".toList, 30)]) := by decide +kernel

theorem base_iff (parse : Str → Option Rat) (l : List Str) (v : Rat) :
    loadBase parse l = some v ↔ ∃ s, Estimate "\"mean\":{".toList l.flatten s ∧ parse s = some v := by
  unfold loadBase
  cases h : estimate "\"mean\":{".toList l.flatten with
  | none =>
    refine ⟨fun h' => (by cases h'), fun ⟨s, hs, _⟩ => ?_⟩
    rw [(C174_estimate _ _ _).2 hs] at h; cases h
  | some s =>
    refine ⟨fun h' => ⟨s, (C174_estimate _ _ _).1 h, h'⟩, fun ⟨s', hs, hp⟩ => ?_⟩
    rw [(C174_estimate _ _ _).2 hs] at h; cases h; exact hp

theorem change_iff (parse : Str → Option Rat) (l : List Str) (v : Rat) :
    loadChange parse l = some v ↔ ∃ s w, Estimate "\"difference\":{".toList l.flatten s ∧ parse s = some w ∧ v = w * 100 := by
  unfold loadChange
  cases h : estimate "\"difference\":{".toList l.flatten with
  | none =>
    refine ⟨fun h' => (by cases h'), fun ⟨s, _, hs, _⟩ => ?_⟩
    rw [(C174_estimate _ _ _).2 hs] at h; cases h
  | some s =>
    constructor
    · intro h'
      obtain ⟨w, hw, e⟩ := Option.map_eq_some_iff.1 h'
      exact ⟨s, w, (C174_estimate _ _ _).1 h, hw, e.symm⟩
    · rintro ⟨s', w, hs, hp, rfl⟩
      rw [(C174_estimate _ _ _).2 hs] at h; cases h
      exact Option.map_eq_some_iff.2 ⟨w, hp, rfl⟩

/-- **C174.** The check ends with success just when the directory can be read and no benchmark in it is too slow or has become slower. -/
theorem C174_gate (parse : Str → Option Rat) (dir : Option (List Entry)) :
    gate parse dir = true ↔ ∃ es, dir = some es ∧ ∀ e ∈ es, ¬ TooSlow parse e ∧ ¬ Slower parse e := by
  cases dir with
  | none => simp [gate]
  | some es =>
    obtain ⟨t1, _, t3⟩ := targets_fold (results parse es) {}
    obtain ⟨r1, _, _, r4⟩ := regress_fold (comparisons parse es) (analyzeTargets (results parse es) {})
    have hg : gate parse (some es) = true ↔
        (∀ c ∈ comparisons parse es, ¬ c.2 > 10) ∧ (∀ r ∈ results parse es, containsStr "incremental".toList r.1 = true → ¬ r.2 / 1000000 > 5) := by
      unfold gate Analysis.hasFailures
      simp only [Bool.not_eq_true', Bool.or_eq_false_iff, Bool.not_eq_false', List.isEmpty_iff]
      rw [r1, r4, t1, t3]
      simp only [List.nil_append, List.filter_eq_nil_iff, true_and, Bool.and_eq_true, decide_eq_true_eq, abs_pos]
    rw [hg]
    constructor
    · rintro ⟨hc, hr⟩
      refine ⟨es, rfl, fun e he => ⟨?_, ?_⟩⟩
      · rintro ⟨hd, hi, l, s, v, hb, hs, hp, hv⟩
        have hm : (e.name, v) ∈ results parse es := by
          refine List.mem_filterMap.2 ⟨e, he, ?_⟩
          rw [if_pos hd, hb, Option.bind_some, (base_iff parse l v).2 ⟨s, hs, hp⟩, Option.map_some]
        obtain ⟨a, b, hab⟩ := hi
        refine hr _ hm (containsStr_iff.2 ⟨a, b, hab.symm⟩) ?_
        simp only
        grind
      · rintro ⟨hd, l, s, v, hb, hs, hp, hv⟩
        have hm : (e.name, v * 100) ∈ comparisons parse es := by
          refine List.mem_filterMap.2 ⟨e, he, ?_⟩
          rw [if_pos hd, hb, Option.bind_some, (change_iff parse l _).2 ⟨s, v, hs, hp, rfl⟩, Option.map_some]
        refine hc _ hm ?_
        simp only
        grind
    · rintro ⟨es', e', h⟩
      cases e'
      refine ⟨fun c hm hv => ?_, fun r hm hi hv => ?_⟩
      · obtain ⟨e, he, h1⟩ := List.mem_filterMap.1 hm
        split at h1
        · next hd =>
          obtain ⟨v, hv', rfl⟩ := Option.map_eq_some_iff.1 h1
          obtain ⟨l, hl, hv'⟩ := Option.bind_eq_some_iff.1 hv'
          obtain ⟨s, w, hs, hp, rfl⟩ := (change_iff parse l v).1 hv'
          refine (h e he).2 ⟨hd, l, s, w, hl, hs, hp, ?_⟩
          simp only at hv
          grind
        · cases h1
      · obtain ⟨e, he, h1⟩ := List.mem_filterMap.1 hm
        split at h1
        · next hd =>
          obtain ⟨v, hv', rfl⟩ := Option.map_eq_some_iff.1 h1
          obtain ⟨l, hl, hv'⟩ := Option.bind_eq_some_iff.1 hv'
          obtain ⟨s, hs, hp⟩ := (base_iff parse l v).1 hv'
          obtain ⟨a, b, hab⟩ := containsStr_iff.1 hi
          refine (h e he).1 ⟨hd, ⟨a, b, hab.symm⟩, l, s, v, hl, hs, hp, ?_⟩
          simp only at hv
          grind
        · cases h1

/-- Reads the two numbers of the examples. -/
def two (s : Str) : Option Rat := if s = "6000000".toList then some 6000000 else if s = "0.5".toList then some (1 / 2) else none

example : gate two (some [⟨"incremental_parse".toList, true, some ["{\"mean\":{".toList, "\"point_estimate\":6000000}}".toList], none⟩]) = false ∧
    gate two (some [⟨"full".toList, true, some ["{\"mean\":{".toList, "\"point_estimate\":6000000}}".toList], none⟩]) = true ∧
    gate two (some [⟨"full".toList, true, none, some ["{\"difference\":{\"point_estimate\":0.5}}".toList]⟩]) = false := by decide +kernel

/-- **C174, disagreement.** Nothing measured passes; so does a benchmark half as slow again if its file says so in other words or cannot be read as a number. -/
theorem C174_unread_violated : gate two (some []) = true ∧
    gate two (some [⟨"full".toList, true, none, some ["{\"mean\":{\"point_estimate\":0.5}}".toList]⟩]) = true ∧
    gate two (some [⟨"full".toList, true, none, some ["{\"difference\":{\"point_estimate\": 0.5}}".toList]⟩]) = true := by decide +kernel

end Verif.Props.PerfGate
