import Verif.Model.Generators
import Verif.Spec.RoundTrip
import Verif.Spec.Time
import Verif.Spec.Override
/-!
# Specification: what generated scripts hold
-/
namespace Verif.Spec.Generators
open Verif.Generators (Level)
open Verif.Ast (Event Style)

/-- A number in decimal digits. -/
def decimal (n : Nat) : List Char := Nat.toDigits 10 n

/-- The properties of a generated script. -/
def properties (title : List Char) : List (List Char × List Char) :=
  [("Title".toList, title), ("ScriptType".toList, "v4.00+".toList), ("WrapStyle".toList, ['0']),
   ("ScaledBorderAndShadow".toList, "yes".toList), ("PlayResX".toList, "1920".toList), ("PlayResY".toList, "1080".toList)]

/-- The name of the style with the number `i`. -/
def nameOf (i : Nat) : List Char := if i = 0 then "Default".toList else "Style".toList ++ decimal i

/-- The sign the event with the number `i` shows. -/
def signOf (i : Nat) : List Char :=
  match i % 6 with
  | 0 => "RESTAURANT".toList
  | 1 => "EXIT".toList
  | 2 => "HOTEL".toList
  | 3 => "NEWS FLASH".toList
  | 4 => "SUBWAY".toList
  | _ => "STORE".toList

/-- What the event with the number `i` shows on the screen. -/
def shown (l : Level) (i : Nat) : List Char :=
  let line := "This is dialogue line number ".toList ++ decimal (i + 1)
  match l with
  | .simple => line
  | .moderate => line ++ " with some formatting".toList
  | .complex => line ++ " with animation".toList
  | .extreme => line ++ " with karaoke timing and complex animations".toList
  | .anime => line
  | .movie => line
  | .karaoke => if i % 3 = 0 then line ++ [' '] else line
  | .sign => signOf i ++ ": This is sign number ".toList ++ decimal (i + 1)
  | .educational =>
    match i % 6 with
    | 0 => line ++ " - This explains the concept in detail with proper formatting.".toList
    | 1 => "Question ".toList ++ decimal (i + 1) ++ ": ".toList ++ line
    | 2 => "Answer: ".toList ++ line
    | 3 => "Definition: ".toList ++ line
    | 4 => "Example: ".toList ++ line
    | _ => "Summary: ".toList ++ line

/-- The event with the number `i`: a dialogue of 25 seconds, every 30 seconds one, that shows its number. -/
structure Numbered (l : Level) (i : Nat) (e : Event) : Prop where
  kind : e.kind = .dialogue
  start : TimeText e.start (3000 * i)
  stop : TimeText e.stop (3000 * i + 2500)
  text : Ovr.Visible false e.text (shown l i)

/-- The style with the number `i`. -/
structure Numbers (i : Nat) (s : Style) : Prop where
  name : s.name = nameOf i
  size : s.fontsize = decimal (20 + 2 * i)
  font : s.fontname = "Arial".toList

/-- The text of the event with the number `i` of the script with problems: every tenth has an empty and an unknown tag,
every seventh of the others a heavy animation. -/
def problem (i : Nat) : List Char :=
  if i % 10 = 0 then r"Text with {\} empty tag and {\invalidtag} unknown tag".toList
  else if i % 7 = 0 then
    r"{\pos(100,200)\move(100,200,500,400,0,5000)\t(0,1000,\frz360)\t(1000,2000,\fscx200\fscy200)\t(2000,3000,\alpha&HFF&)\t(3000,4000,\alpha&H00&)\t(4000,5000,\c&HFF0000&)}Performance heavy animation".toList
  else "Normal dialogue line ".toList ++ decimal (i + 1)

/-- The event with the number `i` of the script with problems: half a second every second. -/
structure Problem (i : Nat) (e : Event) : Prop where
  kind : e.kind = .dialogue
  start : TimeText e.start (100 * i)
  stop : TimeText e.stop (100 * i + 50)
  style : e.style = "Default".toList
  text : e.text = problem i

/-- The event with the number `i` of the script with overlaps: five seconds every two seconds. -/
structure Overlaps (i : Nat) (e : Event) : Prop where
  kind : e.kind = .dialogue
  start : TimeText e.start (200 * i)
  stop : TimeText e.stop (200 * i + 500)
  style : e.style = "Default".toList
  text : e.text = "Event ".toList ++ decimal i ++ " text".toList

end Verif.Spec.Generators
