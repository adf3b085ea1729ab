import Verif.Model.Converter
import Verif.Spec.FormatDoc
/-!
# Specification: which format a file has, and the scripts made from other formats
-/
namespace Verif.Spec.Converter
open Verif.Converter (Format)
open Verif.Ast (Event Style)
open Verif.Parser (Script)
open Verif.Spec.RoundTrip (Content)

/-- The extensions of each format. -/
def names : Format → List (List Char)
  | .ass => ["ass".toList]
  | .ssa => ["ssa".toList]
  | .srt => ["srt".toList]
  | .vtt => ["vtt".toList, "webvtt".toList]
  | .txt => ["txt".toList]

/-- The capital letters. -/
def capitals : List (Char × Char) :=
  "ABCDEFGHIJKLMNOPQRSTUVWXYZ".toList.zip "abcdefghijklmnopqrstuvwxyz".toList

/-- `Spelled x w`: `x` is `w`, but for letters written as capitals. -/
inductive Spelled : List Char → List Char → Prop
  | nil : Spelled [] []
  | same {c x w} : Spelled x w → Spelled (c :: x) (c :: w)
  | capital {a c x w} : (a, c) ∈ capitals → Spelled x w → Spelled (a :: x) (c :: w)

/-- The path names the format: by what follows its last dot. -/
def Named (path : List Char) (f : Format) : Prop :=
  ∃ a e, path = a ++ '.' :: e ∧ '.' ∉ e ∧ ∃ w ∈ names f, Spelled e w

/-- `pat` occurs in `s`. -/
def Occurs (pat s : List Char) : Prop := ∃ a b, s = a ++ pat ++ b

/-- A dialogue with these times and this text. -/
def said (start stop text : List Char) : Event :=
  { kind := .dialogue, layer := ['0'], start, stop, style := "Default".toList, name := [],
    marginL := ['0'], marginR := ['0'], marginV := ['0'], marginT := none, marginB := none, effect := [], text }

/-- The style of imported scripts. -/
def plainStyle : Style := { FormatDoc.defaultStyle with back := "&H00000000".toList }

/-- The script made from a file: its title, perhaps the properties about the video, one style, and the dialogues. -/
def imported (title : List Char) (video : Bool) (l : List (List Char × List Char × List Char)) : List Content :=
  [.info ([("Title".toList, title), ("ScriptType".toList, "v4.00+".toList)] ++
     if video then [("WrapStyle".toList, ['0']), ("PlayResX".toList, "640".toList), ("PlayResY".toList, "480".toList),
       ("ScaledBorderAndShadow".toList, "yes".toList)] else []),
   .styles [plainStyle], .events (l.map fun x => said x.1 x.2.1 x.2.2)]

/-- The dialogues of a script: start, end, text. -/
def dialogues (s : Script) : List (List Char × List Char × List Char) :=
  s.sections.flatMap fun
    | .events l => (l.filter fun e => e.1.kind = .dialogue).map fun e => (e.1.start, e.1.stop, e.1.text)
    | _ => []

/-- What can be converted: times in the usual form, lines the format can carry. -/
def Plays (P : List SrtDoc.Tok → Prop) (x : List Char × List Char × List Char) : Prop :=
  SrtDoc.Canonical x.1 ∧ SrtDoc.Canonical x.2.1 ∧ ∃ L, (∀ l ∈ L, SrtDoc.Carried l ∧ P l) ∧ x.2.2 = SrtDoc.text L

/-- Lines with something between them. -/
def joined (sep : List Char) : List (List Char) → List Char
  | [] => []
  | [l] => l
  | l :: m :: r => l ++ sep ++ joined sep (m :: r)

end Verif.Spec.Converter
