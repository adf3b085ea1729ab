import Verif.Model.IncEdit
import Verif.Spec.Script
import Verif.Spec.Incremental
/-!
# Specification: incremental edits

Of the model the data types are used.
-/
namespace Verif.Spec.IncEdit
open Verif.Pos (Range)
open Verif.IncEdit
open Verif.Spec.Script (size)
open Verif.Spec.Incremental (feeds)

/-- The bytes of `m` right after `a`. -/
def place (a m : List Char) : Range := ⟨size a, size a + size m⟩

/-- An edit that is taken for typing: little text, no bracket, at most one line feed, and little taken away. -/
def Short (m new : List Char) : Prop := size new ≤ 100 ∧ '[' ∉ new ∧ feeds new ≤ 1 ∧ size m ≤ 50

/-- A character of `s` begins at byte `n`, or `s` ends there. -/
def Cut (s : List Char) (n : Nat) : Prop := ∃ p q, s = p ++ q ∧ size p = n

/-- The text the parser keeps is the text of the document, and little has changed since it was last read. -/
def InStep (d : IDoc) : Prop := d.cache.cached = some d.text ∧ d.cache.bytes < d.cache.threshold

/-- The text the parser keeps cannot be cut where the edit is. -/
def Unfit (d : IDoc) (a m : List Char) : Prop :=
  ∃ c, d.cache.cached = some c ∧ d.cache.bytes < d.cache.threshold ∧ ¬ (Cut c (size a) ∧ Cut c (size a + size m))

/-- How many bytes more or less there are. -/
def change (m new : List Char) : Nat := (size new - size m) + (size m - size new)

/-- From the first document long edits lead to the second; `n` is how many bytes they changed. -/
inductive Pasted (dbg : Verif.Parser.Section → List Char) : IDoc → Nat → IDoc → Prop where
  | nil (d : IDoc) : Pasted dbg d 0 d
  | snoc {d d' : IDoc} {n : Nat} {a m b new : List Char} : Pasted dbg d n d' → d'.text = a ++ m ++ b → ¬ Short m new →
      Pasted dbg d (n + change m new) (edit dbg d' (place a m) new).2

end Verif.Spec.IncEdit
