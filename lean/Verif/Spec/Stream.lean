import Verif.Model.Stream
import Verif.Spec.InfoCmd
/-!
# Specification: cutting a text into lines, and the section headers

Of the model only the data types are used.
-/
namespace Verif.Spec.Stream
open Verif.Stream (Kind)
open Verif.Spec.InfoCmd (Stripped)

/-- The line without a carriage return at its end. -/
def withoutCr (l : List Char) : List Char := if l.getLast? = some '\r' then l.dropLast else l

/-- The lines of a text that are ended by a line feed, and what follows the last line feed. -/
inductive Cut : List Char → List (List Char) → List Char → Prop
  | rest (r : List Char) (h : '\n' ∉ r) : Cut r [] r
  | line (l text : List Char) (ls : List (List Char)) (r : List Char) (h : '\n' ∉ l) (hs : Cut text ls r) :
    Cut (l ++ '\n' :: text) (withoutCr l :: ls) r

/-- The names of sections the streaming parser knows. -/
def names : List (List Char × Kind) :=
  [("Script Info".toList, .info), ("V4+ Styles".toList, .styles), ("V4 Styles".toList, .styles), ("Events".toList, .events),
   ("Fonts".toList, .fonts), ("Graphics".toList, .graphics)]

/-- What kind of section a name stands for. -/
def KindOf (name : List Char) (k : Kind) : Prop := (name, k) ∈ names ∨ (k = .unknown ∧ name ∉ names.map (·.1))

/-- The line is the header of a section. -/
def Header (line : List Char) (k : Kind) : Prop :=
  ∃ t name n, Stripped line t ∧ t = '[' :: (name ++ [']']) ∧ Stripped name n ∧ KindOf n k

/-- Reading the lines in section `o` one ends in section `o'`: that of the last header, if there is one. -/
inductive After : Option Kind → List (List Char) → Option Kind → Prop
  | done (o) : After o [] o
  | header (o l ls k o') (h : Header l k) (hs : After (some k) ls o') : After o (l :: ls) o'
  | other (o l ls o') (h : ¬ ∃ k, Header l k) (hs : After o ls o') : After o (l :: ls) o'

end Verif.Spec.Stream
