import Verif.Spec.Script
import Verif.Spec.Lines
/-!
# What a script holds, and which scripts can be written down

A script is what the parser gives: sections, and one field list each for styles and events.
-/
namespace Verif.Spec.RoundTrip
open Verif.Ast
open Verif.Parser (Section Script)
open Verif.Spec.EventCmd (Trimmed White)
open Verif.Spec.Lines
open Verif.Spec.Script (Opens EndsData Remark)

/-- What a section holds, apart from the places in the source. -/
inductive Content where
  | info (fields : List (List Char × List Char))
  | styles (l : List Style)
  | events (l : List Event)
  | fonts (l : List (List Char × List (List Char)))
  | graphics (l : List (List Char × List (List Char)))
deriving DecidableEq

/-- What a parsed section holds. -/
def content : Section → Content
  | .info fields _ => .info fields
  | .styles l => .styles (l.map Prod.fst)
  | .events l => .events (l.map Prod.fst)
  | .fonts l => .fonts (l.map (fun m => (m.filename, m.data)))
  | .graphics l => .graphics (l.map (fun m => (m.filename, m.data)))

/-- A property of the script info: one line, whose name has no colon and does not look like a remark or a header. -/
structure FieldOk (f : List Char × List Char) : Prop where
  line : '\n' ∉ f.1 ∧ '\n' ∉ f.2
  trimmed : Trimmed f.1 ∧ Trimmed f.2
  colon : ':' ∉ f.1
  head : f.1.head? ≠ some ';' ∧ f.1.head? ≠ some '#' ∧ f.1.head? ≠ some '['

/-- The names of a field list can stand in a `Format:` line. -/
def NamesOk (f : List (List Char)) : Prop := f ≠ [] ∧ ∀ n ∈ f, ',' ∉ n ∧ '\n' ∉ n ∧ Trimmed n

/-- A field list for events: documented names spelled as documented; the text last, or no text and at most ten names. -/
structure EventFormatOk (f : List (List Char)) : Prop where
  names : NamesOk f
  spelled : EventSpelled f
  text : (∃ pre, f = pre ++ ["Text".toList] ∧ "Text".toList ∉ pre) ∨ ("Text".toList ∉ f ∧ f.length ≤ 10)

/-- An event such as the field list can describe: one line, no commas but in the text, no outer blanks, and nothing in
the fields not listed. -/
structure EventFits (f : List (List Char)) (e : Event) : Prop where
  plain : PlainEvent e
  trimmed : Trimmed e.text
  line : (∀ x ∈ eventFields, '\n' ∉ x.2 e) ∧ (∀ x ∈ eventOptions, ∀ v, x.2 e = some v → '\n' ∉ v) ∧ '\n' ∉ e.text
  fields : ∀ x ∈ eventFields, ¬ Has f x.1 → x.2 e = []
  options : ∀ x ∈ eventOptions, (x.2 e).isSome ↔ Has f x.1
  text : ¬ Has f "Text".toList → e.text = []

/-- A field list for styles. -/
structure StyleFormatOk (f : List (List Char)) : Prop where
  names : NamesOk f
  spelled : StyleSpelled f

/-- A style such as the field list can describe, without a parent. -/
structure StyleFits (f : List (List Char)) (s : Style) : Prop where
  plain : PlainStyle s
  line : (∀ x ∈ styleFields, '\n' ∉ x.2 s) ∧ (∀ x ∈ styleOptions, ∀ v, x.2 s = some v → '\n' ∉ v)
  star : (∀ x ∈ styleFields, (x.2 s).head? ≠ some '*') ∧ (∀ x ∈ styleOptions, ∀ v, x.2 s = some v → v.head? ≠ some '*')
  parent : s.parent = none
  fields : ∀ x ∈ styleFields, ¬ Has f x.1 → x.2 s = []
  options : ∀ x ∈ styleOptions, (x.2 s).isSome ↔ Has f x.1

/-- Embedded files: at most one in the section; its name and data on lines of their own. -/
structure FilesOk (l : List (List Char × List (List Char))) : Prop where
  one : l.length ≤ 1
  name : ∀ m ∈ l, '\n' ∉ m.1 ∧ Trimmed m.1
  data : ∀ m ∈ l, ∀ x ∈ m.2, '\n' ∉ x ∧ ¬ Opens x ∧ ¬ EndsData x ∧ ¬ Remark x

/-- The usual field lists. -/
def usualEvent : List (List Char) :=
  ["Layer".toList, "Start".toList, "End".toList, "Style".toList, "Name".toList, "MarginL".toList, "MarginR".toList,
   "MarginV".toList, "Effect".toList, "Text".toList]

def usualStyle : List (List Char) := styleFields.map Prod.fst

/-- The section can be written down, with these field lists for styles and events. -/
def Writable (sf ef : Option (List (List Char))) : Content → Prop
  | .info fields => ∀ f ∈ fields, FieldOk f
  | .styles l => (∀ f, sf = some f → StyleFormatOk f) ∧ ∀ s ∈ l, StyleFits (sf.getD usualStyle) s
  | .events l => (∀ f, ef = some f → EventFormatOk f) ∧ ∀ e ∈ l, EventFits (ef.getD usualEvent) e
  | .fonts l => FilesOk l
  | .graphics l => FilesOk l

end Verif.Spec.RoundTrip
