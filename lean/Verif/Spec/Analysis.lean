import Verif.Spec.Lint
import Verif.Spec.Overlap
import Verif.Model.Dialogue
/-!
# Specification: the analysis of a whole script
-/
namespace Verif.Spec.Analysis
open Verif.Ast (Event)

/-- The event is shown from `s` to `t`, some time later. -/
def Timed (e : Event) (s t : Nat) : Prop := TimeText e.start s ∧ TimeText e.stop t ∧ s < t

/-- What a tag counts for. -/
def pointsOf (n : List Char) : Nat :=
  if n ∈ ["b", "i", "u", "s", "c", "1c", "2c", "3c", "4c", "alpha", "1a", "2a", "3a", "4a"].map String.toList then 1
  else if n ∈ ["frx", "fry", "frz", "fscx", "fscy", "fsp", "fad", "fade", "clip", "iclip"].map String.toList then 3
  else if n = "move".toList then 4
  else if n ∈ ["t", "pbo"].map String.toList then 5
  else if n = "p".toList then 8
  else 2

/-- What all tags of a text count for. -/
def points (a : Override.Analysis) : Nat := (a.tags.map (fun t => pointsOf t.name)).sum

/-- One entry for each timed event whose text is understood (`Text`), in order, with a score of at most 10. -/
inductive Entries (Text : List Char → Override.Analysis → Prop) : List Event → List Dialogue.Info → Prop
  | nil : Entries Text [] []
  | keep {e ev i l} : Timed e i.start i.stop → Text e.text i.text → i.animation = min (points i.text) 10 →
      Entries Text ev l → Entries Text (e :: ev) (i :: l)
  | skip {e ev l} : (¬ ∃ s t a, Timed e s t ∧ Text e.text a) → Entries Text ev l → Entries Text (e :: ev) l

/-- All pairs of numbers below `n`, the smaller one first. -/
def pairs (n : Nat) : List (Nat × Nat) := (List.range n).flatMap (fun i => ((List.range n).filter (fun j => i < j)).map (fun j => (i, j)))

instance (a b : Nat × Nat) : Decidable (Ov.Meet a b) :=
  if h : max a.1 b.1 < min a.2 b.2 then .isTrue ⟨max a.1 b.1, by omega, by omega⟩
  else .isFalse (fun ⟨t, h1, h2⟩ => h (by omega))

/-- The number of pairs of times that have an instant in common. -/
def meetings (l : List (Nat × Nat)) : Nat :=
  ((pairs l.length).filter (fun p => match l[p.1]?, l[p.2]? with
    | some a, some b => decide (Ov.Meet a b)
    | _, _ => false)).length

/-- What is taken off for a number: `a` above `hi`, else `b` above `lo`. -/
def fee (n hi a lo b : Nat) : Nat := if hi < n then a else if lo < n then b else 0

/-- What is taken off for a whole script: for its events, overlaps, animations and large fonts. -/
def fees (events overlaps animations fonts : Nat) : Nat :=
  fee events 1000 20 500 10 + fee overlaps 50 15 20 8 + fee animations 100 10 50 5 + fee fonts 10 5 10 5

end Verif.Spec.Analysis
