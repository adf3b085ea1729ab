import Verif.Spec.Script
/-! # Line numbers -/
namespace Verif.Spec.LineNo
open Verif.Spec.Script
open Verif.Spec.EventCmd (White)

/-- `n` is the number of the line in which the byte `a` of the source stands. -/
def LineOf (src : List Char) (a n : Nat) : Prop :=
  ∃ pre post, src = pre ++ post ∧ size pre = a ∧ n = 1 + pre.count '\n'

/-- A line may begin after this. -/
def LineStart (pre : List Char) : Prop := pre = [] ∨ pre = [Char.ofNat 0xFEFF] ∨ pre.getLast? = some '\n'

/-- No line of the source (but perhaps the last) is blank. -/
def NoBlankLine (src : List Char) : Prop :=
  ∀ pre l post, src = pre ++ l ++ '\n' :: post → LineStart pre → '\n' ∉ l → ∃ c ∈ l, ¬ White c

/-- Every line that opens a section has its closing bracket. -/
def Closed (src : List Char) : Prop :=
  ∀ pre l post, src = pre ++ l ++ post → LineStart pre → '\n' ∉ l → (post = [] ∨ post.head? = some '\n') → Opens l →
    ']' ∈ l

end Verif.Spec.LineNo
