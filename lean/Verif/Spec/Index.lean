import Verif.Model.Index
import Verif.Spec.Search
import Verif.Spec.Karaoke
/-!
# Specification: search indexes
-/
namespace Verif.Spec.Index
open Verif
open Verif.Search (Hit)
open Verif.Index (Scope)
open Verif.Spec.Srch (IsWordAt)

/-- Where line number `n` would begin if every line before it ended with one line feed. -/
def lineStart (ls : List Str) (n : Nat) : Nat := ((ls.take n).map fun l => byteLen l + 1).sum

/-- A line in square brackets. -/
def Header (l name : Str) : Prop := l = '[' :: name ++ [']']

/-- `name` is what stands in the last line in square brackets up to line `n`. -/
def InSection (ls : List Str) (n : Nat) (name : Str) : Prop :=
  ∃ (m : Nat) (l : Str), m ≤ n ∧ ls[m]? = some l ∧ Header l name ∧
    ∀ (j : Nat) (k other : Str), m < j → j ≤ n → ls[j]? = some k → ¬ Header k other

/-- The word at column `col` of line `n` is one to look at. -/
def Wanted (ls : List Str) (n col : Nat) : Scope → Prop
  | .all => True
  | .lines a b => a ≤ n ∧ n ≤ b
  | .sections names => ∃ name ∈ names, InSection ls n name
  | .range a b => a ≤ lineStart ls n + col ∧ lineStart ls n + col ≤ b

/-- The word `w` stands at column `col` of line number `n`, which is `l`. -/
def WordIn (word : Char → Bool) (ls : List Str) (n : Nat) (l w : Str) (col : Nat) : Prop :=
  ls[n]? = some l ∧ IsWordAt word l w col

end Verif.Spec.Index
