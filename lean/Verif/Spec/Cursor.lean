import Verif.Model.Str
/-!
# Specification: lines of a selection
-/
namespace Verif.Spec.Cursor
open Verif

/-- Line `i` of the lines `ls` has the byte `pos`; the end of the text belongs to the last line. -/
def HasByte (ls : List Str) (pos i : Nat) : Prop :=
  i < ls.length ∧ byteLen (ls.take i).flatten ≤ pos ∧
    (pos < byteLen (ls.take (i + 1)).flatten ∨ (i + 1 = ls.length ∧ pos = byteLen ls.flatten))

/-- The lines from `i` to `j` changed one by one, the others as they were. -/
def Changed (R : Str → Str → Prop) (ls : List Str) (i j : Nat) (ls' : List Str) : Prop :=
  ls'.length = ls.length ∧ ∀ k l, ls[k]? = some l → ∃ l', ls'[k]? = some l' ∧ if i ≤ k ∧ k ≤ j then R l l' else l' = l

/-- `n` spaces in front. -/
def Indented (n : Nat) (l l' : Str) : Prop := l' = List.replicate n ' ' ++ l

/-- Without its leading spaces, of which at most `n` are taken. -/
def Unindented (n : Nat) (l l' : Str) : Prop := ∃ k, k ≤ n ∧ l = List.replicate k ' ' ++ l' ∧ (k = n ∨ l'.head? ≠ some ' ')

/-- The characters that end a line in ropey; CR LF ends it together. -/
def breaks : List Char := ['\n', '\r', '\x0B', '\x0C', '\u0085', '\u2028', '\u2029']

/-- A line that ends: characters that are no breaks, then one break or CR LF. -/
def Ended (l : Str) : Prop :=
  ∃ body stop, l = body ++ stop ∧ (∀ c ∈ body, c ∉ breaks) ∧ (stop = ['\r', '\n'] ∨ ∃ c ∈ breaks, stop = [c])

/-- The lines of a text: all but the last end, the last has no break, and CR LF is not divided. -/
inductive Lines : List Str → Prop where
  | last (l : Str) : (∀ c ∈ l, c ∉ breaks) → Lines [l]
  | cons (l m : Str) (ls : List Str) : Ended l → (l.getLast? = some '\r' → m.head? ≠ some '\n') → Lines (m :: ls) → Lines (l :: m :: ls)

end Verif.Spec.Cursor
