import Verif.Spec.Media
/-!
# Specification: a history of changes to the embedded files

Nothing here refers to the model.
-/
namespace Verif.Spec.MediaHistory
open Verif.Spec.Media

/-- An embedded file: its name and its lines of data. -/
abbrev File := List Char × List (List Char)

/-- A change. -/
inductive Op where
  | add (name : List Char) (data : List (List Char))
  | remove (name : List Char)
  | clear

/-- The line that names a file. -/
def nameLine (key name : List Char) : List Char := key ++ ": ".toList ++ name

/-- A file written as lines, `f.2.2` empty lines following. -/
def written (key : List Char) (f : List Char × List (List Char) × Nat) : List (List Char) :=
  nameLine key f.1 :: (f.2.1 ++ List.replicate f.2.2 [])

/-- The lines hold exactly these files, in this order; besides there are only empty lines. -/
def Sheet (key : List Char) (L : List (List Char)) (files : List File) : Prop :=
  ∃ (k : Nat) (fs : List (List Char × List (List Char) × Nat)), L = List.replicate k [] ++ fs.flatMap (written key) ∧ files = fs.map (fun f => (f.1, f.2.1))

/-- The files after a change. -/
def change (files : List File) : Op → List File
  | .add n d => files ++ [(n, d)]
  | .remove n => files.eraseP (fun f => f.1 = n)
  | .clear => []

/-- The files after a history. -/
def after (files : List File) (ops : List Op) : List File := ops.foldl change files

/-- A file that can be told from the others: the line that names it is found in no line of data, and in that of another
file only if it has the same name. -/
structure Fine (key : List Char) (names : List (List Char)) (f : File) : Prop where
  name : '\n' ∉ f.1 ∧ Verif.Spec.EventCmd.Trimmed f.1
  data : ∀ l ∈ f.2, '\n' ∉ l ∧ l.head? ≠ some '[' ∧ Lacks (key ++ ":".toList) l
  apart : ∀ n ∈ names, n ≠ f.1 → Lacks (nameLine key n) (nameLine key f.1)

/-- A change that names such files. -/
def Op.Fine (key : List Char) (names : List (List Char)) : Op → Prop
  | .add n d => Verif.Spec.MediaHistory.Fine key names (n, d)
  | .remove n => n ∈ names ∧ '\n' ∉ n
  | .clear => True

end Verif.Spec.MediaHistory
