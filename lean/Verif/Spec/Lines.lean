import Verif.Model.Ast
import Verif.Spec.EventCmd
import Verif.Spec.InfoCmd
/-!
# What it means that a written line reads back

The fields of events and styles by their documented names; what a field list (the `Format:` line) must satisfy; what is
kept.
-/
namespace Verif.Spec.Lines
open Verif.Ast
open Verif.Spec.EventCmd (Plain White Trimmed)
open Verif.Spec.InfoCmd (Stripped)

/-- The same name but for the case of letters. -/
def SameName (a b : List Char) : Prop := a.map Char.toLower = b.map Char.toLower

/-- The list of names has this one. -/
def Has (fmt : List (List Char)) (n : List Char) : Prop := ∃ f ∈ fmt, SameName f n

/-- The documented fields of an event other than the text. -/
def eventFields : List (List Char × (Event → List Char)) :=
  [("Layer".toList, Event.layer), ("Start".toList, Event.start), ("End".toList, Event.stop), ("Style".toList, Event.style),
   ("Name".toList, Event.name), ("MarginL".toList, Event.marginL), ("MarginR".toList, Event.marginR),
   ("MarginV".toList, Event.marginV), ("Effect".toList, Event.effect)]

/-- The optional ones. -/
def eventOptions : List (List Char × (Event → Option (List Char))) :=
  [("MarginT".toList, Event.marginT), ("MarginB".toList, Event.marginB)]

/-- Every documented name in the list is spelled as documented. -/
def EventSpelled (fmt : List (List Char)) : Prop :=
  ∀ f ∈ fmt, ∀ n ∈ eventFields.map Prod.fst ++ eventOptions.map Prod.fst ++ ["Text".toList], SameName f n → f = n

/-- No field other than the text has a comma or blanks at an end. -/
def PlainEvent (e : Event) : Prop :=
  (∀ f ∈ eventFields, Plain (f.2 e)) ∧ (∀ f ∈ eventOptions, ∀ v, f.2 e = some v → Plain v)

/-- What of an event `e` the event `e'` keeps, by the list of names: the kind, every field listed (a missing optional one
as `0`), the text without its outer blanks; nothing else. -/
def KeptEvent (fmt : List (List Char)) (e e' : Event) : Prop :=
  e'.kind = e.kind ∧
  (∀ f ∈ eventFields, (Has fmt f.1 → f.2 e' = f.2 e) ∧ (¬ Has fmt f.1 → f.2 e' = [])) ∧
  (∀ f ∈ eventOptions, (Has fmt f.1 → f.2 e' = some ((f.2 e).getD ['0'])) ∧ (¬ Has fmt f.1 → f.2 e' = none)) ∧
  ((Has fmt "Text".toList → Stripped e.text e'.text) ∧ (¬ Has fmt "Text".toList → e'.text = []))

/-- The documented fields of a style. -/
def styleFields : List (List Char × (Style → List Char)) :=
  [("Name".toList, Style.name), ("Fontname".toList, Style.fontname), ("Fontsize".toList, Style.fontsize),
   ("PrimaryColour".toList, Style.primary), ("SecondaryColour".toList, Style.secondary),
   ("OutlineColour".toList, Style.outlineColour), ("BackColour".toList, Style.back), ("Bold".toList, Style.bold),
   ("Italic".toList, Style.italic), ("Underline".toList, Style.underline), ("StrikeOut".toList, Style.strikeout),
   ("ScaleX".toList, Style.scaleX), ("ScaleY".toList, Style.scaleY), ("Spacing".toList, Style.spacing),
   ("Angle".toList, Style.angle), ("BorderStyle".toList, Style.borderStyle), ("Outline".toList, Style.outline),
   ("Shadow".toList, Style.shadow), ("Alignment".toList, Style.alignment), ("MarginL".toList, Style.marginL),
   ("MarginR".toList, Style.marginR), ("MarginV".toList, Style.marginV), ("Encoding".toList, Style.encoding)]

/-- The optional ones. -/
def styleOptions : List (List Char × (Style → Option (List Char))) :=
  [("MarginT".toList, Style.marginT), ("MarginB".toList, Style.marginB), ("RelativeTo".toList, Style.relativeTo)]

/-- Every documented name in the list is spelled as documented (two spellings are in use for one of them). -/
def StyleSpelled (fmt : List (List Char)) : Prop :=
  ∀ f ∈ fmt, ∀ n ∈ styleFields.map Prod.fst ++ styleOptions.map Prod.fst, SameName f n → f = n ∨ f = "Strikeout".toList

/-- No field has a comma or blanks at an end. -/
def PlainStyle (s : Style) : Prop :=
  (∀ f ∈ styleFields, Plain (f.2 s)) ∧ (∀ f ∈ styleOptions, ∀ v, f.2 s = some v → Plain v)

/-- What of a style `s` the style `s'` keeps: every field listed (a missing optional one as `0`), nothing else. -/
def KeptStyle (fmt : List (List Char)) (s s' : Style) : Prop :=
  s'.parent = none ∧
  (∀ f ∈ styleFields, (Has fmt f.1 → f.2 s' = f.2 s) ∧ (¬ Has fmt f.1 → f.2 s' = [])) ∧
  (∀ f ∈ styleOptions, (Has fmt f.1 → f.2 s' = some ((f.2 s).getD ['0'])) ∧ (¬ Has fmt f.1 → f.2 s' = none))

end Verif.Spec.Lines
