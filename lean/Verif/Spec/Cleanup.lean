import Verif.Spec.Encoding
import Verif.Spec.EventCmd
import Verif.Spec.Script
/-!
# Specification: cleaning up texts
-/
namespace Verif.Spec.Cleanup
open Verif.Spec.EventCmd (White)
open Verif.Spec.InfoCmd (Stripped)

/-- White space other than line feeds and tabulators. -/
def Odd (c : Char) : Prop := White c ∧ c ≠ '\n' ∧ c ≠ '\t'

/-- The second text has a space for every odd white space of the first, and is the same otherwise. -/
inductive Spaced : List Char → List Char → Prop
  | nil : Spaced [] []
  | space {c s t} : Odd c → Spaced s t → Spaced (c :: s) (' ' :: t)
  | same {c s t} : ¬ Odd c → Spaced s t → Spaced (c :: s) (c :: t)

/-- The second text has one space for every stretch of spaces of the first, and is the same otherwise. -/
inductive Squeezed : List Char → List Char → Prop
  | nil : Squeezed [] []
  | same {c s t} : c ≠ ' ' → Squeezed s t → Squeezed (c :: s) (c :: t)
  | stretch {n s t} : s.head? ≠ some ' ' → Squeezed s t → Squeezed (List.replicate (n + 1) ' ' ++ s) (' ' :: t)

/-- The second text is the first without the characters that are not allowed. -/
inductive Purged : List Char → List Char → Prop
  | nil : Purged [] []
  | keep {c s t} : Encoding.Allowed c → Purged s t → Purged (c :: s) (c :: t)
  | drop {c s t} : ¬ Encoding.Allowed c → Purged s t → Purged (c :: s) t

/-- The lines without the white space at their ends. -/
inductive Lines : List (List Char) → List (List Char) → Prop
  | nil : Lines [] []
  | cons {l b ls bs} : Stripped l b → Lines ls bs → Lines (l :: ls) (b :: bs)

end Verif.Spec.Cleanup
