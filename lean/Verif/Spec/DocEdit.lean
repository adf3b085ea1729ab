import Verif.Spec.Builders
import Verif.Spec.Incremental
/-!
# Specification: editing events and properties through the document

Of the model the data types, the table of the kinds' names and the reading of a line (`parseEvent`, which has its own properties) are
used.
-/
namespace Verif.Spec.DocEdit
open Verif.Ast (Event parseEvent)
open Verif.Parser (Section)
open Verif.Update (Kind)
open Verif.Spec.EventCmd (csv)
open Verif.Spec.Script
open Verif.Spec.Incremental


/-- `pat` occurs in `s` behind `a`, and nowhere earlier. -/
def FirstAt (pat s a : List Char) : Prop := (∃ b, s = a ++ pat ++ b) ∧ ∀ a' b', s = a' ++ pat ++ b' → a.length ≤ a'.length

/-- How the usual line of an event begins. -/
def begins (e : Event) : List Char := e.kind.str ++ ": ".toList ++ csv [e.layer, e.start, e.stop]

/-- The usual line of an event. -/
def written (e : Event) : List Char :=
  e.kind.str ++ ": ".toList ++ csv [e.layer, e.start, e.stop, e.style, e.name, e.marginL, e.marginR, e.marginV, e.effect, e.text]

/-- The fields of an event that can be set, by name. -/
def fields : List (List Char × (Event → List Char → Event)) :=
  [("layer".toList, fun e v => { e with layer := v }), ("start".toList, fun e v => { e with start := v }),
   ("end".toList, fun e v => { e with stop := v }), ("style".toList, fun e v => { e with style := v }),
   ("name".toList, fun e v => { e with name := v }), ("margin_l".toList, fun e v => { e with marginL := v }),
   ("margin_r".toList, fun e v => { e with marginR := v }), ("margin_v".toList, fun e v => { e with marginV := v }),
   ("effect".toList, fun e v => { e with effect := v }), ("text".toList, fun e v => { e with text := v })]

/-- The event after the fields were set one after the other. -/
inductive Changed : Event → List (List Char × List Char) → Event → Prop
  | nil {e} : Changed e [] e
  | cons {e n v set ms e'} : (n, set) ∈ fields → Changed (set e v) ms e' → Changed e ((n, v) :: ms) e'

/-- What is up to the end of a line ends there. -/
def Ends (post : List Char) : Prop := post = [] ∨ post.head? = some '\n'

/-- The events among what a section says. -/
def eventsIn : Spec.Update.Says → List Event
  | .events l => l
  | _ => []

/-- The fields among what a section says. -/
def fieldsIn : Spec.Update.Says → List (List Char × List Char)
  | .info l => l
  | _ => []

/-- The styles among what a section says. -/
def stylesIn : Spec.Update.Says → List Verif.Ast.Style
  | .styles l => l
  | _ => []

/-- The lines of a source before the line number `b1.length` of a section. -/
def before (first : List Line) (A : List (Kind × List Line)) (k : Kind) (b1 : List Line) : List Line :=
  first ++ A.flatMap (fun p => usual p.1 :: p.2) ++ usual k :: b1

/-- A source made of sections, of which a line `l` of a section of the kind `k` is looked at. -/
structure At (src : List Char) (first : List Line) (A : List (Kind × List Line)) (k : Kind) (b1 : List Line) (l : Line)
    (b2 : List Line) (B : List (Kind × List Line)) : Prop where
  text : src = source first (A ++ (k, b1 ++ l :: b2) :: B)
  bom : src.head? ≠ some (Char.ofNat 0xFEFF)
  first : ∀ m ∈ first, Clean m
  others : ∀ p ∈ A ++ B, ∀ m ∈ p.2, Clean m
  lines : ∀ m ∈ b1 ++ l :: b2, Clean m
  size : size src ≤ 50 * 1024 * 1024

/-- The line `l` of an events section is that of the event `e`, by the field list `f` in force there; it begins in the usual way, which
no line before it contains. -/
structure EventAt (first : List Line) (A : List (Kind × List Line)) (b1 : List Line) (l : Line) (e : Event)
    (f : Option (List (List Char))) : Prop where
  inForce : ∃ o es, EventsOf none o b1 es f
  reads : ∃ x, Says l x ∧ parseEvent x (f.getD []) = some e
  line : ∃ rest, l = begins e ++ rest
  first : ∀ m ∈ before first A .events b1, ¬ begins e <:+: m

/-- An event that a builder can stand for: dialogue or comment, the numbers written in decimal. -/
structure Usual (e : Event) : Prop where
  kind : e.kind = .dialogue ∨ e.kind = .comment
  numbers : ∀ x ∈ [e.layer, e.marginL, e.marginR, e.marginV], ∃ n < 2 ^ 32, x = Nat.toDigits 10 n
  margins : ∀ o ∈ [e.marginT, e.marginB], ∀ x, o = some x → ∃ n < 2 ^ 32, x = Nat.toDigits 10 n

/-- No text given to the builder has a line break. -/
def OneLine (b : Verif.Builders.EventB) : Prop :=
  ∀ o ∈ [b.start, b.stop, b.style, b.name, b.effect, b.text], ∀ x, o = some x → '\n' ∉ x

end Verif.Spec.DocEdit
