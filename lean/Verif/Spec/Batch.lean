import Verif.Spec.Doc
import Verif.Model.Batch
/-!
# Specification: sequences of edits as commands
-/
namespace Verif.Spec.Batch
open Verif Verif.Pos Verif.Spec Verif.Batch

/-- Where the text put in by an edit lies right after it: beginning and end. -/
def place : Edit → Nat × Nat
  | .insert pos t => (pos, pos + byteLen t)
  | .delete r => (r.start, r.start)
  | .replace r t => (r.start, r.start + byteLen t)

/-- The command of the API that makes an edit. -/
def cmdOf : Edit → Cmd
  | .insert pos t => insertCmd pos t
  | .delete r => deleteCmd r
  | .replace r t => replaceCmd r t

/-- Edits in order, each of them beginning at or behind the end of the one before. -/
inductive Forward : Str → List Edit → Str → Nat → Prop where
  | nil (s : Str) : Forward s [] s 0
  | snoc {s s' s'' : Str} {es : List Edit} {e : Edit} {k : Nat} :
      Forward s es s' k → Splice s' e s'' → k ≤ (place e).1 → Forward s (es ++ [e]) s'' (place e).2

/-- Texts typed one after another from a position on. -/
def typed : Nat → List Str → List Edit
  | _, [] => []
  | p, t :: ts => .insert p t :: typed (p + byteLen t) ts

end Verif.Spec.Batch
