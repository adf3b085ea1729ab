import Verif.Spec.Query
import Verif.Spec.EventCmd
import Verif.Spec.RoundTrip
/-!
# Specification: scripts in which every way of counting events agrees
-/
namespace Verif.Spec.Fluent
open Verif
open Verif.Ast (Event Kind)
open Verif.Parser (Section Script)
open Verif.Spec.EventCmd (IsEvent Lacks)
open Verif.Spec.RoundTrip (Content content)

/-- No line of the section looks like an event. -/
def Quiet : Content → Prop
  | .info fields => ∀ f ∈ fields, f.1 ≠ "Dialogue".toList ∧ f.1 ≠ "Comment".toList
  | .styles _ => True
  | .events _ => False
  | .fonts l => ∀ m ∈ l, ∀ x ∈ m.2, ¬ IsEvent x
  | .graphics l => ∀ m ∈ l, ∀ x ∈ m.2, ¬ IsEvent x

/-- The event is a dialogue or a comment. -/
def Spoken (e : Event) : Prop := e.kind = .dialogue ∨ e.kind = .comment

/-- The script `s` has one section of events, `l` with the field list `fmt`, after `A` and before `B`; it can be written down, is not too
large, its events are dialogues and comments with times that fit in 32 bits; nothing before it looks like its header, nothing after it like
an event. -/
structure Tidy (s : Script) (A : List Section) (l : List (Event × Parser.Span)) (B : List Section) (fmt : List Str) : Prop where
  sections : s.sections = A ++ .events l :: B
  format : s.eventsFmt = some fmt
  writable : ∀ x ∈ s.sections, RoundTrip.Writable s.stylesFmt s.eventsFmt (content x)
  size : Script.size (Parser.toAss s) ≤ 50 * 1024 * 1024
  one : ∀ x ∈ A, ∀ l, content x ≠ .events l
  header : Lacks "[Events]".toList (Parser.toAss { s with sections := A })
  quiet : ∀ x ∈ B, Quiet (content x)
  spoken : ∀ e ∈ l, Spoken e.1
  fits : ∀ e ∈ l, Query.Fits e.1

/-- `b` is the time `a` plus the length from `a` to `e`, times the factor, in whole centiseconds. -/
def Scaled (factor : Rat) (a e b : Nat) : Prop := (b : Int) = a + (factor * ((e : Rat) - a)).floor

end Verif.Spec.Fluent
