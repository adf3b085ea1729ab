import Verif.Model.Parser
/-!
# Builders of event and style lines — `crates/ass-editor/core/builders/{event,event_build,style,style_build,style_format}.rs`

Numbers of type `f32` (scales, spacing, angle, widths) are kept as the texts `to_string` gives for them; the whole numbers are
`Nat`, without the bound of `u32`.
-/
namespace Verif.Builders
open Verif
open Verif.Ast (Kind)
open Verif.Parser (Version)

/-- `EventBuilder`, event.rs lines 38-52. -/
structure EventB where
  kind : Option Kind := none
  start : Option Str := none
  stop : Option Str := none
  style : Option Str := none
  name : Option Str := none
  text : Option Str := none
  layer : Option Nat := none
  marginL : Option Nat := none
  marginR : Option Nat := none
  marginV : Option Nat := none
  marginT : Option Nat := none
  marginB : Option Nat := none
  effect : Option Str := none

/-- `x.to_string()` or the default. -/
def num (x : Option Nat) (d : Str) : Str :=
  match x with
  | some n => showNat n
  | none => d

/-- `build_with_version`, event_build.rs lines 27-65. -/
def EventB.buildVersion (b : EventB) (v : Version) : Str :=
  (b.kind.getD .dialogue).str ++ ": ".toList ++
  match v with
  | .ssa4 => "Marked=0,".toList ++ joinStr [','] [b.start.getD "0:00:00.00".toList, b.stop.getD "0:00:05.00".toList,
      b.style.getD "Default".toList, b.name.getD [], num b.marginL ['0'], num b.marginR ['0'], num b.marginV ['0'], b.effect.getD [],
      b.text.getD []]
  | _ => joinStr [','] [num b.layer ['0'], b.start.getD "0:00:00.00".toList, b.stop.getD "0:00:05.00".toList,
      b.style.getD "Default".toList, b.name.getD [], num b.marginL ['0'], num b.marginR ['0'], num b.marginV ['0'], b.effect.getD [],
      b.text.getD []]

/-- `build`, event_build.rs lines 21-24. -/
def EventB.build (b : EventB) : Str := b.buildVersion .ass4

/-- The value of a field, event_build.rs lines 83-109; `none`: unknown. -/
def EventB.value (b : EventB) (f : Str) : Option Str :=
  if f = "Layer".toList then some (num b.layer ['0'])
  else if f = "Start".toList then some (b.start.getD "0:00:00.00".toList)
  else if f = "End".toList then some (b.stop.getD "0:00:05.00".toList)
  else if f = "Style".toList then some (b.style.getD "Default".toList)
  else if f = "Name".toList ∨ f = "Actor".toList then some (b.name.getD [])
  else if f = "MarginL".toList then some (num b.marginL ['0'])
  else if f = "MarginR".toList then some (num b.marginR ['0'])
  else if f = "MarginV".toList then some (num b.marginV ['0'])
  else if f = "MarginT".toList then some (num b.marginT ['0'])
  else if f = "MarginB".toList then some (num b.marginB ['0'])
  else if f = "Effect".toList then some (b.effect.getD [])
  else if f = "Text".toList then some (b.text.getD [])
  else none

/-- The loop over the format, event_build.rs lines 82-111. -/
def valuesOf (value : Str → Option Str) : List Str → Option (List Str)
  | [] => some []
  | f :: l => match value f with
    | none => none
    | some v => match valuesOf value l with
      | some r => some (v :: r)
      | none => none

/-- `build_with_format`, event_build.rs lines 69-116; `none` is the error. -/
def EventB.buildFormat (b : EventB) (format : List Str) : Option Str :=
  if format = [] then none
  else match valuesOf b.value format with
    | none => none
    | some l => some ((b.kind.getD .dialogue).str ++ ": ".toList ++ joinStr [','] l)

/-- `StyleBuilder`, style.rs lines 8-36. -/
structure StyleB where
  name : Option Str := none
  fontname : Option Str := none
  fontsize : Option Nat := none
  primary : Option Str := none
  secondary : Option Str := none
  outlineColour : Option Str := none
  back : Option Str := none
  bold : Option Bool := none
  italic : Option Bool := none
  underline : Option Bool := none
  strikeout : Option Bool := none
  scaleX : Option Str := none
  scaleY : Option Str := none
  spacing : Option Str := none
  angle : Option Str := none
  borderStyle : Option Nat := none
  outline : Option Str := none
  shadow : Option Str := none
  alignment : Option Nat := none
  marginL : Option Nat := none
  marginR : Option Nat := none
  marginV : Option Nat := none
  marginT : Option Nat := none
  marginB : Option Nat := none
  encoding : Option Nat := none
  alphaLevel : Option Nat := none
  relativeTo : Option Str := none

/-- Flags, e.g. style_build.rs lines 28-32. -/
def flag (x : Option Bool) : Str := if x.getD false then "-1".toList else "0".toList

/-- `build`, style_build.rs lines 16-72. -/
def StyleB.build (b : StyleB) : Str :=
  "Style: ".toList ++ joinStr [','] [b.name.getD "NewStyle".toList, b.fontname.getD "Arial".toList, num b.fontsize "20".toList,
    b.primary.getD "&Hffffff".toList, b.secondary.getD "&Hff0000".toList, b.outlineColour.getD "&H0".toList, b.back.getD "&H0".toList,
    flag b.bold, flag b.italic, flag b.underline, flag b.strikeout, b.scaleX.getD "100".toList, b.scaleY.getD "100".toList,
    b.spacing.getD "0".toList, b.angle.getD "0".toList, num b.borderStyle "1".toList, b.outline.getD "2".toList,
    b.shadow.getD "0".toList, num b.alignment "2".toList, num b.marginL "10".toList, num b.marginR "10".toList,
    num b.marginV "10".toList, num b.encoding "1".toList]

/-- The value of a field, style_format.rs lines 27-92. -/
def StyleB.value (b : StyleB) (f : Str) : Option Str :=
  if f = "Name".toList then some (b.name.getD "NewStyle".toList)
  else if f = "Fontname".toList then some (b.fontname.getD "Arial".toList)
  else if f = "Fontsize".toList then some (num b.fontsize "20".toList)
  else if f = "PrimaryColour".toList then some (b.primary.getD "&Hffffff".toList)
  else if f = "SecondaryColour".toList then some (b.secondary.getD "&Hff0000".toList)
  else if f = "OutlineColour".toList ∨ f = "TertiaryColour".toList then some (b.outlineColour.getD "&H0".toList)
  else if f = "BackColour".toList then some (b.back.getD "&H0".toList)
  else if f = "Bold".toList then some (flag b.bold)
  else if f = "Italic".toList then some (flag b.italic)
  else if f = "Underline".toList then some (flag b.underline)
  else if f = "Strikeout".toList ∨ f = "StrikeOut".toList then some (flag b.strikeout)
  else if f = "ScaleX".toList then some (b.scaleX.getD "100".toList)
  else if f = "ScaleY".toList then some (b.scaleY.getD "100".toList)
  else if f = "Spacing".toList then some (b.spacing.getD "0".toList)
  else if f = "Angle".toList then some (b.angle.getD "0".toList)
  else if f = "BorderStyle".toList then some (num b.borderStyle "1".toList)
  else if f = "Outline".toList then some (b.outline.getD "2".toList)
  else if f = "Shadow".toList then some (b.shadow.getD "0".toList)
  else if f = "Alignment".toList then some (num b.alignment "2".toList)
  else if f = "MarginL".toList then some (num b.marginL "10".toList)
  else if f = "MarginR".toList then some (num b.marginR "10".toList)
  else if f = "MarginV".toList then some (num b.marginV "10".toList)
  else if f = "MarginT".toList then some (num b.marginT "0".toList)
  else if f = "MarginB".toList then some (num b.marginB "0".toList)
  else if f = "Encoding".toList then some (num b.encoding "1".toList)
  else if f = "AlphaLevel".toList then some (num b.alphaLevel "0".toList)
  else if f = "RelativeTo".toList then some (b.relativeTo.getD "0".toList)
  else none

/-- `build_with_format`, style_format.rs lines 16-99. -/
def StyleB.buildFormat (b : StyleB) (format : List Str) : Option Str :=
  if format = [] then none
  else match valuesOf b.value format with
    | none => none
    | some l => some ("Style: ".toList ++ joinStr [','] l)

/-- The formats of `build_with_version`, style_build.rs lines 77-160. -/
def styleNames : Version → List Str
  | .ssa4 => ["Name".toList, "Fontname".toList, "Fontsize".toList, "PrimaryColour".toList, "SecondaryColour".toList,
      "TertiaryColour".toList, "BackColour".toList, "Bold".toList, "Italic".toList, "BorderStyle".toList, "Outline".toList,
      "Shadow".toList, "Alignment".toList, "MarginL".toList, "MarginR".toList, "MarginV".toList, "AlphaLevel".toList, "Encoding".toList]
  | .ass4 => Ast.styleFormat
  | .ass4plus => ["Name".toList, "Fontname".toList, "Fontsize".toList, "PrimaryColour".toList, "SecondaryColour".toList,
      "OutlineColour".toList, "BackColour".toList, "Bold".toList, "Italic".toList, "Underline".toList, "StrikeOut".toList,
      "ScaleX".toList, "ScaleY".toList, "Spacing".toList, "Angle".toList, "BorderStyle".toList, "Outline".toList,
      "Shadow".toList, "Alignment".toList, "MarginL".toList, "MarginR".toList, "MarginV".toList, "MarginT".toList, "MarginB".toList,
      "Encoding".toList, "RelativeTo".toList]

/-- `build_with_version`, style_build.rs lines 75-163. -/
def StyleB.buildVersion (b : StyleB) (v : Version) : Option Str := b.buildFormat (styleNames v)

end Verif.Builders
