import Verif.Model.StyleCmd
import Verif.Model.Map
/-!
# Chained edits of a style — `crates/ass-editor/core/fluent/style.rs`, `commands/style_commands/edit.rs`

The values set are kept in a hash map, which is gone through in an order nobody knows: it is given from outside, as a rearrangement of
the entries.
-/
namespace Verif.StyleOps
open Verif

/-- The setters of `StyleEditor`, style.rs lines 67-108. -/
inductive Setter where
  | font (f : Str)
  | size (n : Nat)
  | color (c : Str)
  | bold (b : Bool)
  | italic (b : Bool)
  | alignment (n : Nat)
  | field (name value : Str)

/-- The field and its value: `set_font` to `set_alignment` and `set_field`, edit.rs lines 40-74. -/
def Setter.entry : Setter → Str × Str
  | .font f => ("Fontname".toList, f)
  | .size n => ("Fontsize".toList, showNat n)
  | .color c => ("PrimaryColour".toList, c)
  | .bold b => ("Bold".toList, if b then "-1".toList else "0".toList)
  | .italic b => ("Italic".toList, if b then "-1".toList else "0".toList)
  | .alignment n => ("Alignment".toList, showNat n)
  | .field name value => (name, value)

/-- The map after the setters have been called in this order, edit.rs lines 32-44. -/
def collect (ss : List Setter) : Map Str Str := ss.foldl (fun m s => m.insert s.entry.1 s.entry.2) []

/-- `apply`, style.rs lines 110-114, with `EditStyleCommand::execute`: `us` are the entries in the order in which they come. -/
def apply (name : Str) (us : List (Str × Str)) (d : Doc.Doc) : Outcome Unit × Doc.Doc := StyleCmd.edit name us d

end Verif.StyleOps
