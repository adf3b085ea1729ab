import Verif.Spec.Update
import Verif.Spec.Script
/-!
# Where sections stand
-/
namespace Verif.Spec.Lookup
open Verif.Parser (Section Span)
open Verif.Update (Kind)
open Verif.Spec.Update (places kindOf Spanned)
open Verif.Spec.Script (Line size sizes Opens StylesName)
open Verif.Spec.InfoCmd (Stripped)
open Verif.Spec.EventCmd (White)

/-- The section has something in it; the first thing begins at `a`, the last ends at `b`. -/
def Extent (s : Section) (a b : Nat) : Prop :=
  ∃ x y, (places s).head? = some x ∧ (places s).getLast? = some y ∧ x.start = a ∧ y.stop = b

/-- The kind of the sections of a name. -/
inductive Named : List Char → Kind → Prop
  | info : Named "Script Info".toList .info
  | styles {n} : StylesName n → Named n .styles
  | events : Named "Events".toList .events
  | fonts : Named "Fonts".toList .fonts
  | graphics : Named "Graphics".toList .graphics

/-- Lines, the first at offset `o`, and the sections read from them: each section of a known name stands between its header
line and the bracket of the next one (or the end). -/
inductive Stands : Nat → List Line → List Section → Prop
  | nil (o : Nat) : Stands o [] []
  | known {o : Nat} {w raw r n : List Char} {body rest : List Line} {sec : Section} {ss : List Section} :
      (∀ c ∈ w, White c) → ']' ∉ raw → (∀ l ∈ body, ¬ Opens l) → Stripped raw n → Named n (kindOf sec) →
      (∀ x, Spanned x sec → o + size (w ++ '[' :: raw ++ ']' :: r) < x ∧
        (rest = [] → x + 1 < o + size (w ++ '[' :: raw ++ ']' :: r) + 1 + sizes body) ∧
        ∀ w' r', rest.head? = some (w' ++ '[' :: r') → (∀ c ∈ w', White c) →
          x < o + size (w ++ '[' :: raw ++ ']' :: r) + 1 + sizes body + size w') →
      Stands (o + size (w ++ '[' :: raw ++ ']' :: r) + 1 + sizes body) rest ss →
      Stands o ((w ++ '[' :: raw ++ ']' :: r) :: (body ++ rest)) (sec :: ss)
  | unknown {o : Nat} {w raw r n : List Char} {body rest : List Line} {ss : List Section} :
      (∀ c ∈ w, White c) → ']' ∉ raw → (∀ l ∈ body, ¬ Opens l) → Stripped raw n → (∀ k, ¬ Named n k) →
      Stands (o + size (w ++ '[' :: raw ++ ']' :: r) + 1 + sizes body) rest ss →
      Stands o ((w ++ '[' :: raw ++ ']' :: r) :: (body ++ rest)) ss

end Verif.Spec.Lookup
