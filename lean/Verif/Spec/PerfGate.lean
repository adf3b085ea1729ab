import Verif.Model.PerfGate
/-!
# When the check of benchmark results is to fail
-/
namespace Verif.Spec.PerfGate
open Verif Verif.PerfGate

/-- `pat` occurs in `s` behind `a`, and nowhere earlier. -/
def FirstAt (pat a b : List Char) : Prop := ∀ a' b', a ++ pat ++ b = a' ++ pat ++ b' → a.length ≤ a'.length

/-- `e` is what follows the first `"point_estimate":` after the first `key`, up to a comma, a closing brace or the end. -/
def Estimate (key content e : List Char) : Prop :=
  ∃ x b y r, content = x ++ key ++ b ∧ FirstAt key x b ∧
    key ++ b = y ++ "\"point_estimate\":".toList ++ (e ++ r) ∧ FirstAt "\"point_estimate\":".toList y (e ++ r) ∧
    ',' ∉ e ∧ '}' ∉ e ∧ (r = [] ∨ ∃ t, r = ',' :: t ∨ r = '}' :: t)

/-- A benchmark of incremental parsing that takes more than 5 ms. -/
def TooSlow (parse : List Char → Option Rat) (e : Entry) : Prop :=
  e.isDir = true ∧ "incremental".toList <:+: e.name ∧
    ∃ l s v, e.base = some l ∧ Estimate "\"mean\":{".toList l.flatten s ∧ parse s = some v ∧ v > 5000000

/-- A benchmark that has become slower by more than a tenth. -/
def Slower (parse : List Char → Option Rat) (e : Entry) : Prop :=
  e.isDir = true ∧ ∃ l s v, e.change = some l ∧ Estimate "\"difference\":{".toList l.flatten s ∧ parse s = some v ∧ v > 1 / 10

end Verif.Spec.PerfGate
