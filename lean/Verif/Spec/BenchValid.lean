import Verif.Model.Str
/-!
# What a line of benchmark results says, and what is allowed
-/
namespace Verif.Spec.BenchValid

/-- `pat` stands in `s` between `a` and `b`, and nowhere earlier. -/
def First (pat s a b : List Char) : Prop := s = a ++ pat ++ b ∧ ∀ a' b', s = a' ++ pat ++ b' → a.length ≤ a'.length

/-- The line says that the benchmark `n` took `v` milliseconds. -/
def Says (parse : List Char → Option Rat) (line n : List Char) (v : Rat) : Prop :=
  "\"benchmark\"".toList <:+: line ∧ "\"mean\"".toList <:+: line ∧
  (∃ a b, First "\"id\":\"".toList line a (n ++ '"' :: b) ∧ '"' ∉ n) ∧
  (∃ a e r, First "\"estimate\":".toList line a (e ++ r) ∧ ',' ∉ e ∧ '}' ∉ e ∧ (r = [] ∨ ∃ t, r = ',' :: t ∨ r = '}' :: t) ∧
    parse (trim e) = some v)

open Classical in
/-- How many milliseconds a benchmark of incremental parsing may take. -/
noncomputable def allowed (n : List Char) : Rat :=
  if ¬ "large_scale_anime".toList <:+: n then 5
  else if "bdmv_full".toList <:+: n then 50
  else if "ova_complex".toList <:+: n then 25
  else if "movie_2hr".toList <:+: n then 15
  else 10

end Verif.Spec.BenchValid
