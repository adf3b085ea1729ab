import Verif.Model.Incremental
import Verif.Spec.Script
import Verif.Spec.Update
/-!
# Specification: incremental parsing

Of the model the data types are used.
-/
namespace Verif.Spec.Incremental
open Verif.Parser
open Verif.Update (Kind)
open Verif.Incremental (TextChange)
open Verif.Spec.Script
open Verif.Spec.Update (places)

/-- The bytes from `a` to `b` are `x`. -/
def Text (src : List Char) (a b : Nat) (x : List Char) : Prop := ∃ p q, src = p ++ x ++ q ∧ size p = a ∧ size (p ++ x) = b

/-- The usual header of a kind of section. -/
def usual : Kind → List Char
  | .info => "[Script Info]".toList
  | .styles => "[V4+ Styles]".toList
  | .events => "[Events]".toList
  | .fonts => "[Fonts]".toList
  | .graphics => "[Graphics]".toList

/-- A source made of lines before the first section, and of sections with their lines. -/
def source (first : List Line) (parts : List (Kind × List Line)) : List Char :=
  unlines (first ++ parts.flatMap (fun p => usual p.1 :: p.2))

/-- A line that is not a header and does not contain one. -/
def Clean (l : Line) : Prop := '\n' ∉ l ∧ ¬ Opens l ∧ ∀ k, ¬ usual k <:+: l

/-- The change touches the section: it overlaps what is from its first to its last thing, or adds to its end. -/
def Touched (c : TextChange) (s : Section) : Prop :=
  ∃ a b, (places s).head? = some a ∧ (places s).getLast? = some b ∧
    ((c.start < b.stop ∧ a.start < c.stop) ∨ (c.start = c.stop ∧ c.start = b.stop))

/-- The new source is the old one with the change made. -/
def Edited (src : List Char) (c : TextChange) (new : List Char) : Prop :=
  ∃ p o q, src = p ++ o ++ q ∧ new = p ++ c.text ++ q ∧ c.start = size p ∧ c.stop = size (p ++ o)

/-- Of `x`, which stands at byte `a`, `x1` is what is before byte `m`. -/
def Before (x : List Char) (a m : Nat) (x1 : List Char) : Prop := (∃ r, x = x1 ++ r ∧ a + size x1 = m) ∨ (x1 = [] ∧ m ≤ a)

/-- Of `x`, which ends at byte `b`, `x2` is what is after byte `m`. -/
def After (x : List Char) (b m : Nat) (x2 : List Char) : Prop := (∃ r, x = r ++ x2 ∧ m + size x2 = b) ∨ (x2 = [] ∧ b ≤ m)

/-- The number of line feeds. -/
def feeds (s : List Char) : Nat := (s.filter (fun c => c = '\n')).length

end Verif.Spec.Incremental
