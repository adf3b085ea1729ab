import Verif.Model.Str
/-!
# Specification: occurrences and substitution
-/
namespace Verif.Spec.Srch
open Verif

/-- `pat` occurs in `text` at byte offset `off`. -/
def Occurs (pat text : Str) (off : Nat) : Prop := ∃ a b, text = a ++ pat ++ b ∧ byteLen a = off

/-- No two occurrences overlap. -/
def NoOverlap (pat text : Str) : Prop :=
  ∀ i j, Occurs pat text i → Occurs pat text j → i < j → i + byteLen pat ≤ j

/-- `out` is `s` with every occurrence of `pat`, taken from the left, replaced by `rep`. -/
inductive Subst (pat rep : Str) : Str → Str → Prop
  | done (s : Str) (h : ∀ off, ¬ Occurs pat s off) : Subst pat rep s s
  | step (a b b' : Str) (h : ∀ off, Occurs pat (a ++ pat ++ b) off → byteLen a ≤ off) (hb : Subst pat rep b b') :
      Subst pat rep (a ++ pat ++ b) (a ++ rep ++ b')

/-- The text after the last line feed. -/
def lastLine (s : Str) : Str := (s.reverse.takeWhile (· ≠ '\n')).reverse

/-- The text before the first line feed. -/
def firstLine (s : Str) : Str := s.takeWhile (· ≠ '\n')

/-- `w` is a maximal run of word characters of `text`, starting at byte `off`. -/
def IsWordAt (word : Char → Bool) (text w : Str) (off : Nat) : Prop :=
  ∃ a b, text = a ++ w ++ b ∧ byteLen a = off ∧ w ≠ [] ∧ (∀ c ∈ w, word c = true) ∧
    (∀ c, a.getLast? = some c → word c = false) ∧ (∀ c, b.head? = some c → word c = false)

end Verif.Spec.Srch
