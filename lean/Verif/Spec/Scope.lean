import Verif.Spec.Search
import Verif.Model.Index
/-!
# Specification: parts of a text, matches in it
-/
namespace Verif.Spec.Scope
open Verif
open Verif.Search (Hit)
open Verif.Spec.Srch (lastLine firstLine)

/-- `region` consists of the lines number `first` to `last` of `before ++ region ++ after`, without the line feed at the end. -/
structure LinesOf (first last : Nat) (before region after : Str) : Prop where
  /-- the lines before -/
  count : before.count '\n' = first
  start : before = [] ∨ before.getLast? = some '\n'
  /-- the lines of the region -/
  inside : first + region.count '\n' ≤ last
  /-- it ends at the end of the text or at the end of line `last` -/
  stop : after = [] ∨ (after.head? = some '\n' ∧ first + region.count '\n' = last)

/-- The result reported for the stretch `m` between `a` and `b`: where it is, its text, the line it begins in, the number of that line
and the byte in it. -/
def report (a m b : Str) : Hit :=
  ⟨byteLen a, byteLen a + byteLen m, m, lastLine a ++ firstLine (m ++ b), a.count '\n', byteLen (lastLine a)⟩

/-- `rx` finds stretches of the text it is given. -/
def Finds (rx : Str → List (Nat × Nat)) : Prop :=
  ∀ s x, x ∈ rx s → ∃ a m b, s = a ++ m ++ b ∧ x = (byteLen a, byteLen a + byteLen m)

/-- Gaps and matches, one after another, and the rest of the text. -/
def whole (parts : List (Str × Str)) (rest : Str) : Str := parts.flatMap (fun p => p.1 ++ p.2) ++ rest

/-- Where the matches are when the text before is `n` bytes long. -/
def places : Nat → List (Str × Str) → List (Nat × Nat)
  | _, [] => []
  | n, (g, m) :: ps => (n + byteLen g, n + byteLen g + byteLen m) :: places (n + byteLen g + byteLen m) ps

end Verif.Spec.Scope
