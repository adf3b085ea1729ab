import Verif.Model.DeltaCmd
import Verif.Spec.IncEdit
/-!
# Specification: commands that edit incrementally
-/
namespace Verif.Spec.DeltaCmd
open Verif.DeltaCmd (Cmd)
open Verif.Spec.IncEdit (place Short)
open Verif.Spec.Script (size)

/-- What a list of short insertions and replacements of whole characters makes of a text, one after the other. -/
inductive Texts : List Char → List Cmd → List Char → Prop where
  | nil (t : List Char) : Texts t [] t
  | insert {a new b t' : List Char} {r : List Cmd} : Short [] new → Texts (a ++ new ++ b) r t' →
      Texts (a ++ b) (.insert (size a) new :: r) t'
  | replace {a m new b t' : List Char} {r : List Cmd} : Short m new → Texts (a ++ new ++ b) r t' →
      Texts (a ++ m ++ b) (.replace (place a m) new :: r) t'

end Verif.Spec.DeltaCmd
