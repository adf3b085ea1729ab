import Verif.Model.Str
/-!
# Specification: lines and columns
-/
namespace Verif.Spec
open Verif

/-- `ls` is a division of `text` into lines of which only the last may be empty. -/
def LinesOf (ls : List Str) (text : Str) : Prop :=
  ls.flatten = text ∧ ls ≠ [] ∧ ∀ i l, ls[i]? = some l → i + 1 < ls.length → l ≠ []

/-- The place after the prefix `before` of the text is column `col` of line `line` (1-based):
the prefix consists of `line - 1` whole lines and `col - 1` characters of the next line, which
(unless it is the last line) has further characters. -/
def At (ls : List Str) (before : Str) (line col : Nat) : Prop :=
  ∃ l, 1 ≤ line ∧ 1 ≤ col ∧ ls[line - 1]? = some l ∧
    before = (ls.take (line - 1)).flatten ++ l.take (col - 1) ∧
    (col - 1 < l.length ∨ (col - 1 = l.length ∧ line = ls.length))

end Verif.Spec
