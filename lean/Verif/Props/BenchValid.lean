import Verif.Model.BenchValid
import Verif.Spec.BenchValid
import Verif.Props.PerfGate
/-!
# C175 — the validation of benchmark results succeeds just when no time is over its limit
-/
namespace Verif.Props.BenchValid
open Verif Verif.BenchValid Verif.Spec.BenchValid

theorem has_iff {p s : Str} : containsStr p s = true ↔ p <:+: s := by
  rw [containsStr_iff]
  exact ⟨fun ⟨a, b, h⟩ => ⟨a, b, h.symm⟩, fun ⟨a, b, h⟩ => ⟨a, b, h.symm⟩⟩

theorem split_iff {p s a b : Str} : splitOnceStr p s = some (a, b) ↔ First p s a b := by
  constructor
  · exact fun h => splitOnceStr_some h
  · rintro ⟨rfl, h⟩
    exact splitOnceStr_first h

theorem limit_allowed (n : Str) : limit n = allowed n := by
  have no {p : Str} (h : ¬ p <:+: n) : ¬ containsStr p n = true := fun h' => h (has_iff.1 h')
  unfold limit allowed
  by_cases h1 : "large_scale_anime".toList <:+: n
  · rw [if_pos (has_iff.2 h1), if_neg (not_not_intro h1)]
    by_cases h2 : "bdmv_full".toList <:+: n
    · rw [if_pos (has_iff.2 h2), if_pos h2]
    · rw [if_neg (no h2), if_neg h2]
      by_cases h3 : "ova_complex".toList <:+: n
      · rw [if_pos (has_iff.2 h3), if_pos h3]
      · rw [if_neg (no h3), if_neg h3]
        by_cases h4 : "movie_2hr".toList <:+: n
        · rw [if_pos (has_iff.2 h4), if_pos h4]
        · rw [if_neg (no h4), if_neg h4]
  · rw [if_neg (no h1), if_pos h1]

theorem string_iff (pat line n : Str) : jsonString pat line = some n ↔ ∃ a b, First pat line a (n ++ '"' :: b) ∧ '"' ∉ n := by
  unfold jsonString
  constructor
  · intro h
    split at h
    · cases h
    · next a r hs =>
      split at h
      · cases h
      · next s b hq =>
        cases h
        obtain ⟨e, hn⟩ := splitOnce_some hq
        exact ⟨a, b, by rw [← e]; exact split_iff.1 hs, hn⟩
  · rintro ⟨a, b, h, hn⟩
    rw [split_iff.2 h]
    simp only
    rw [splitOnce_append b hn]

theorem number_iff (parse : Str → Option Rat) (pat line : Str) (v : Rat) : jsonNumber parse pat line = some v ↔
    ∃ a e r, First pat line a (e ++ r) ∧ ',' ∉ e ∧ '}' ∉ e ∧ (r = [] ∨ ∃ t, r = ',' :: t ∨ r = '}' :: t) ∧ parse (trim e) = some v := by
  unfold jsonNumber
  constructor
  · intro h
    split at h
    · cases h
    · next a r hs =>
      obtain ⟨q, h1, h2, h3, h4⟩ := PerfGate.take_parts r
      exact ⟨a, _, q, by rw [← h1]; exact split_iff.1 hs, h2, h3, h4, h⟩
  · rintro ⟨a, e, r, h, h1, h2, h3, hp⟩
    rw [split_iff.2 h]
    simp only
    rw [PerfGate.take_until e r h1 h2 h3]
    exact hp

/-- **C175.** What is loaded of a file is, line by line, what the lines say; and never how much memory was used. -/
theorem C175_load (parse : Str → Option Rat) (ls : List Str) (r : Result) :
    r ∈ load parse ls ↔ (∃ l ∈ ls, ∃ v, Says parse l r.name v ∧ r.ns = v * 1000000) ∧ r.memory = none ∧ r.throughput = none := by
  unfold load
  rw [List.mem_filterMap]
  constructor
  · rintro ⟨l, hl, h⟩
    split at h
    · next hc =>
      rw [Bool.and_eq_true, has_iff, has_iff] at hc
      unfold parseLine at h
      split at h
      · cases h
      · next n hn =>
        split at h
        · cases h
        · next v hv =>
          cases h
          exact ⟨⟨l, hl, v, ⟨hc.1, hc.2, (string_iff _ _ _).1 hn, (number_iff _ _ _ _).1 hv⟩, rfl⟩, rfl, rfl⟩
    · cases h
  · rintro ⟨⟨l, hl, v, ⟨h1, h2, h3, h4⟩, hv⟩, hm, ht⟩
    refine ⟨l, hl, ?_⟩
    rw [if_pos (by rw [Bool.and_eq_true, has_iff, has_iff]; exact ⟨h1, h2⟩)]
    unfold parseLine
    rw [(string_iff _ _ _).2 h3]
    simp only
    rw [(number_iff _ _ _ _).2 h4]
    simp only
    cases r
    simp only at hv hm ht
    subst hv hm ht
    rfl

theorem add_failed (v : Verdict) (ok : Bool) (n : Str) : (v.add ok n).failed = [] ↔ v.failed = [] ∧ ok = true := by
  unfold Verdict.add
  cases ok <;> simp

theorem inc_one (v : Verdict) (r : Result) : (incrementalOne v r).failed = [] ↔ v.failed = [] ∧
    ("incremental".toList <:+: r.name → r.ns / 1000000 ≤ allowed r.name) ∧ ("editor_simulation".toList <:+: r.name → r.ns / 1000000 ≤ 10) := by
  have e : (5 : Rat) * 2 = 10 := by grind
  unfold incrementalOne
  rw [e, limit_allowed]
  simp only [← has_iff]
  generalize containsStr "incremental".toList r.name = p
  generalize containsStr "editor_simulation".toList r.name = q
  cases p <;> cases q <;> simp [add_failed, and_assoc]

theorem inc_fold (rs : List Result) (v : Verdict) : (rs.foldl incrementalOne v).failed = [] ↔ v.failed = [] ∧ ∀ r ∈ rs,
    ("incremental".toList <:+: r.name → r.ns / 1000000 ≤ allowed r.name) ∧ ("editor_simulation".toList <:+: r.name → r.ns / 1000000 ≤ 10) := by
  induction rs generalizing v with
  | nil => exact ⟨fun h => ⟨h, fun _ hm => nomatch hm⟩, fun h => h.1⟩
  | cons r rs ih =>
    rw [List.foldl_cons, ih, inc_one, List.forall_mem_cons, and_assoc]

theorem par_one (v : Verdict) (r : Result) (hm : r.memory = none) : (parserOne v r).failed = v.failed := by
  unfold parserOne
  rw [hm]
  simp only
  split
  · split <;> rfl
  · rfl

theorem par_fold (rs : List Result) (v : Verdict) (h : ∀ r ∈ rs, r.memory = none) : (rs.foldl parserOne v).failed = v.failed := by
  induction rs generalizing v with
  | nil => rfl
  | cons r rs ih =>
    rw [List.foldl_cons, ih _ (fun x hx => h x (by simp [hx])), par_one _ _ (h r (by simp))]

/-- **C175.** The validation succeeds just when both files can be read and no line of the incremental results says of a benchmark of incremental parsing
or of an editor simulation that it took longer than allowed. -/
theorem C175_success (parse : Str → Option Rat) (parserFile incFile : Option (List Str)) :
    (validate parse parserFile incFile).isSuccess = true ↔ parserFile.isSome = true ∧ ∃ ls, incFile = some ls ∧
      ∀ l ∈ ls, ∀ n v, Says parse l n v →
        ("incremental".toList <:+: n → v ≤ allowed n) ∧ ("editor_simulation".toList <:+: n → v ≤ 10) := by
  unfold validate Verdict.isSuccess
  rw [List.isEmpty_iff]
  cases parserFile with
  | none => simp
  | some lp =>
    simp only
    rw [par_fold _ _ (fun r hr => ((C175_load parse lp r).1 hr).2.1)]
    cases incFile with
    | none => simp
    | some ls =>
      simp only
      rw [inc_fold]
      constructor
      · rintro ⟨_, h⟩
        refine ⟨rfl, ls, rfl, fun l hl n v hs => ?_⟩
        have := h ⟨n, v * 1000000, none, none⟩ ((C175_load parse ls _).2 ⟨⟨l, hl, v, hs, rfl⟩, rfl, rfl⟩)
        have e : v * 1000000 / 1000000 = v := by grind
        simp only [e] at this
        exact this
      · rintro ⟨_, ls', e', h⟩
        cases e'
        refine ⟨rfl, fun r hr => ?_⟩
        obtain ⟨⟨l, hl, v, hs, hv⟩, _⟩ := (C175_load parse ls r).1 hr
        have e : r.ns / 1000000 = v := by rw [hv]; grind
        rw [e]
        exact h l hl _ v hs

/-- Reads the numbers of the examples. -/
def some3 (s : Str) : Option Rat := if s = "4".toList then some 4 else if s = "12".toList then some 12 else if s = "900".toList then some 900 else none

example : (validate some3 (some []) (some ["{\"benchmark\",\"id\":\"incremental_small\",\"mean\":{\"estimate\": 4}}".toList])).isSuccess = true ∧
    (validate some3 (some []) (some ["{\"benchmark\",\"id\":\"incremental_small\",\"mean\":{\"estimate\": 12}}".toList])).isSuccess = false ∧
    (validate some3 (some []) (some ["{\"benchmark\",\"id\":\"incremental_large_scale_anime_movie_2hr\",\"mean\":{\"estimate\": 12}}".toList])).isSuccess = true := by
  decide +kernel

/-- **C175, disagreement.** Memory is never checked, whatever the file says of it; full parsing of any length only warns; and no results at all pass. -/
theorem C175_memory_violated :
    validate some3 (some ["{\"benchmark\",\"id\":\"parsing\",\"mean\":{\"estimate\":4},\"throughput_bytes_per_sec\":4,\"memory_usage\":900}".toList]) (some []) =
      { passed := ["parsing".toList] } ∧
    validate some3 (some ["{\"benchmark\",\"id\":\"parsing\",\"mean\":{\"estimate\":900}}".toList]) (some []) = { warnings := ["parsing".toList] } ∧
    (validate some3 (some []) (some [])).isSuccess = true := by decide +kernel

end Verif.Props.BenchValid
