import Verif.Model.Follow
import Verif.Spec.Script
/-!
# Specification: what an event says about the text
-/
namespace Verif.Spec.Follow
open Verif Verif.Follow Verif.Spec.Script

/-- `Says s e t`: the event tells how the text `s` became `t`. -/
inductive Says : Str → Event → Str → Prop where
  | inserted (a b t : Str) : Says (a ++ b) (.inserted (size a) t (size t)) (a ++ t ++ b)
  | deleted (a m b : Str) : Says (a ++ m ++ b) (.deleted ⟨size a, size a + size m⟩ m) (a ++ b)
  | replaced (a m b n : Str) : Says (a ++ m ++ b) (.replaced ⟨size a, size a + size m⟩ m n) (a ++ n ++ b)

/-- The events, one after the other, tell how `s` became `t`. -/
inductive SaysAll : Str → List Event → Str → Prop where
  | nil (s : Str) : SaysAll s [] s
  | cons {s t u : Str} {e : Event} {es : List Event} : Says s e t → SaysAll t es u → SaysAll s (e :: es) u

/-- `n` is a place between two characters of the text. -/
def Between (s : Str) (n : Nat) : Prop := ∃ a b, s = a ++ b ∧ size a = n

/-- The edit begins and ends between two characters, or it is refused: it leads behind the text. -/
def Clear (s : Str) : Edit → Prop
  | .insert p _ => Between s p ∨ size s < p
  | .delete r => (Between s r.start ∧ Between s r.fin ∧ r.start ≤ r.fin) ∨ size s < r.fin
  | .replace r _ => (Between s r.start ∧ Between s r.fin ∧ r.start ≤ r.fin) ∨ size s < r.fin

/-- Edits made one after the other, all of them clear. -/
inductive Edits : Doc.Doc → List Call → Prop where
  | nil (d : Doc.Doc) : Edits d []
  | cons {d : Doc.Doc} {e : Edit} {cs : List Call} : Clear d.text e → Edits (Call.run d (.edit e)) cs → Edits d (.edit e :: cs)

end Verif.Spec.Follow
