import Verif.Model.DeltaApply
/-!
# What a section delta should do
-/
namespace Verif.Spec.DeltaApply
open Verif
open Verif.Update (Kind)

/-- Header line of each kind of section. -/
def head : Kind → Str
  | .info => "[Script Info]".toList
  | .styles => "[V4+ Styles]".toList
  | .events => "[Events]".toList
  | .fonts => "[Fonts]".toList
  | .graphics => "[Graphics]".toList

/-- No section header occurs in the text. -/
def Headless (s : Str) : Prop := ∀ k a b, s ≠ a ++ head k ++ b

/-- The text of one section: its header and then anything without headers. -/
def IsSection (k : Kind) (t : Str) : Prop := ∃ b, t = head k ++ b ∧ Headless b

/-- A document: some text before the sections, then the sections, no two of one kind. -/
structure Document where
  pre : Str
  secs : List (Kind × Str)

/-- Its text. -/
def Document.text (d : Document) : Str := d.pre ++ (d.secs.map (·.2)).flatten

/-- Headers occur only at the start of sections, one for each kind. -/
structure Document.Clean (d : Document) : Prop where
  pre : Headless d.pre
  secs : ∀ p ∈ d.secs, IsSection p.1 p.2
  once : (d.secs.map (·.1)).Nodup

/-- The sections from index `i` on after removing and modifying. -/
def changed (removed : List Nat) (modified : List (Nat × Str)) : Nat → List (Kind × Str) → List (Kind × Str)
  | _, [] => []
  | i, (k, t) :: l =>
    if i ∈ removed then changed removed modified (i + 1) l
    else (k, (modified.lookup i).getD t) :: changed removed modified (i + 1) l

/-- `t` on lines of its own at the end of `s`. -/
def onOwnLines (s t : Str) : Str :=
  (if s = [] ∨ s.getLast? = some '\n' then s else s ++ ['\n']) ++
  (if t.getLast? = some '\n' then t else t ++ ['\n'])

end Verif.Spec.DeltaApply
