import Verif.Model.DocValid
import Verif.Spec.Doc
/-!
# Specification: documents that are edited and validated
-/
namespace Verif.Spec.DocValid
open Verif Verif.Pos Verif.Lint Verif.DocValid
open Verif.Ast (Style)

/-- What a client does with a document: edits, commands, validation. -/
inductive Step where
  | insert (pos : Nat) (t : Str)
  | delete (r : Range)
  | replace (r : Range) (t : Str)
  | execInsert (pos : Nat) (t : Str)
  | execDelete (r : Range)
  | validate (now : Nat)
  | force (now : Nat)
  | isValid (now : Nat)
  | setConfig (c : VConfig)

/-- The document afterwards. -/
def Step.run (alone child : Style → Bool) (d : VDoc) : Step → VDoc
  | .insert p t => (d.insert p t).2
  | .delete r => (d.delete r).2
  | .replace r t => (d.replace r t).2
  | .execInsert p t => (d.execInsert p t).2
  | .execDelete r => (d.execDelete r).2
  | .validate now => (d.validate alone child now).2
  | .force now => (d.force alone child now).2
  | .isValid now => (d.isValid alone child now).2
  | .setConfig c => d.setConfig c

/-- The place lies between two characters, or behind the text. -/
def Apart (s : Str) (n : Nat) : Prop := (∃ a b, s = a ++ b ∧ byteLen a = n) ∨ byteLen s < n

/-- Ranges are in order, and those replaced or deleted by a command begin between characters. -/
def Step.Clear (s : Str) : Step → Prop
  | .delete r => r.start ≤ r.fin
  | .replace r _ => r.start ≤ r.fin ∧ Apart s r.start
  | .execDelete r => r.start ≤ r.fin ∧ Apart s r.start
  | _ => True

/-- The documents that come from a text by such steps. -/
inductive Made (alone child : Style → Bool) : VDoc → Prop where
  | start (cfg : Doc.Config) (c : VConfig) (s : Str) : Made alone child (VDoc.ofText cfg c s)
  | step {d : VDoc} (x : Step) : Made alone child d → x.Clear d.doc.text → Made alone child (x.run alone child d)

end Verif.Spec.DocValid
