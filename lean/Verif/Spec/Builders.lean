import Verif.Model.Builders
import Verif.Spec.RoundTrip
/-!
# Specification: what a builder means

Of the model only the data types are used.  A number is written in decimal (`Nat.toDigits` of Lean).
-/
namespace Verif.Spec.Builders
open Verif
open Verif.Ast (Event Style)
open Verif.Builders (EventB StyleB)
open Verif.Spec.Lines
open Verif.Spec.EventCmd (Plain Trimmed)

/-- The given number in decimal, or the default. -/
def dec (x : Option Nat) (d : String) : List Char := (x.map (Nat.toDigits 10)).getD d.toList

/-- A flag. -/
def yes : Option Bool → List Char
  | some true => ['-', '1']
  | _ => ['0']

/-- The event a builder stands for: what was given, and defaults for the rest. -/
def event (b : EventB) : Event :=
  { kind := b.kind.getD .dialogue
    layer := dec b.layer "0"
    start := b.start.getD "0:00:00.00".toList
    stop := b.stop.getD "0:00:05.00".toList
    style := b.style.getD "Default".toList
    name := b.name.getD []
    marginL := dec b.marginL "0"
    marginR := dec b.marginR "0"
    marginV := dec b.marginV "0"
    marginT := b.marginT.map (Nat.toDigits 10)
    marginB := b.marginB.map (Nat.toDigits 10)
    effect := b.effect.getD []
    text := b.text.getD [] }

/-- No given text other than the event's text has a comma or outer blanks. -/
structure PlainB (b : EventB) : Prop where
  start : ∀ s, b.start = some s → Plain s
  stop : ∀ s, b.stop = some s → Plain s
  style : ∀ s, b.style = some s → Plain s
  name : ∀ s, b.name = some s → Plain s
  effect : ∀ s, b.effect = some s → Plain s

/-- The names of an event's fields. -/
def eventNames : List (List Char) := "Actor".toList :: "Text".toList :: (eventFields.map Prod.fst ++ eventOptions.map Prod.fst)

/-- The style a builder stands for. -/
def style (b : StyleB) : Style :=
  { name := b.name.getD "NewStyle".toList
    parent := none
    fontname := b.fontname.getD "Arial".toList
    fontsize := dec b.fontsize "20"
    primary := b.primary.getD "&Hffffff".toList
    secondary := b.secondary.getD "&Hff0000".toList
    outlineColour := b.outlineColour.getD "&H0".toList
    back := b.back.getD "&H0".toList
    bold := yes b.bold
    italic := yes b.italic
    underline := yes b.underline
    strikeout := yes b.strikeout
    scaleX := b.scaleX.getD "100".toList
    scaleY := b.scaleY.getD "100".toList
    spacing := b.spacing.getD "0".toList
    angle := b.angle.getD "0".toList
    borderStyle := dec b.borderStyle "1"
    outline := b.outline.getD "2".toList
    shadow := b.shadow.getD "0".toList
    alignment := dec b.alignment "2"
    marginL := dec b.marginL "10"
    marginR := dec b.marginR "10"
    marginV := dec b.marginV "10"
    marginT := b.marginT.map (Nat.toDigits 10)
    marginB := b.marginB.map (Nat.toDigits 10)
    encoding := dec b.encoding "1"
    relativeTo := b.relativeTo }

/-- All texts given to a style builder. -/
def given (b : StyleB) : List (Option (List Char)) :=
  [b.name, b.fontname, b.primary, b.secondary, b.outlineColour, b.back, b.scaleX, b.scaleY, b.spacing, b.angle, b.outline, b.shadow,
    b.relativeTo]

/-- The names of a style's fields that are read again. -/
def styleNames : List (List Char) := "Strikeout".toList :: (styleFields.map Prod.fst ++ styleOptions.map Prod.fst)

end Verif.Spec.Builders
