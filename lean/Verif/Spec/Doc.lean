import Verif.Model.Doc
/-!
# Specification: what edits mean, and which documents are reachable
-/
namespace Verif.Spec
open Verif Verif.Pos Verif.Doc

/-- A user edit. -/
inductive Edit where
  | insert (pos : Nat) (t : Str)
  | delete (r : Range)
  | replace (r : Range) (t : Str)

/-- `Splice s e s'`: on text `s` the edit `e`, at whole-character positions, means `s'`. -/
inductive Splice : Str → Edit → Str → Prop where
  | insert (a b t : Str) : Splice (a ++ b) (.insert (byteLen a) t) (a ++ t ++ b)
  | delete (a m b : Str) : Splice (a ++ m ++ b) (.delete ⟨byteLen a, byteLen a + byteLen m⟩) (a ++ b)
  | replace (a m b n : Str) :
      Splice (a ++ m ++ b) (.replace ⟨byteLen a, byteLen a + byteLen m⟩ n) (a ++ n ++ b)

/-- Sequences of edits. -/
inductive Splices : Str → List Edit → Str → Prop where
  | nil (s : Str) : Splices s [] s
  | snoc {s s' s'' : Str} {es : List Edit} {e : Edit} :
      Splices s es s' → Splice s' e s'' → Splices s (es ++ [e]) s''

/-- The edit keeps the byte length of the range it replaces (vacuous for the other edits). -/
def Edit.SameLength : Edit → Prop
  | .replace r t => byteLen t = r.len
  | _ => True

/-- Memory charged for an edit. -/
def Edit.cost (opSize : Nat) : Edit → Nat
  | .insert _ t => opSize + byteLen t + 11
  | .delete r => opSize + r.len + 11
  | .replace r t => opSize + r.len + byteLen t + 12

/-- Perform an edit through the document API. -/
def Edit.run (d : Doc) : Edit → Outcome Unit × Doc
  | .insert pos t => d.insert pos t
  | .delete r => d.delete r
  | .replace r t => d.replace r t

/-- Perform edits in order, ignoring outcomes. -/
def runAll (d : Doc) : List Edit → Doc
  | [] => d
  | e :: es => runAll (e.run d).2 es

/-- Call `undo` `n` times; `none` as soon as one call does not succeed. -/
def undoTimes : Nat → Doc → Option Doc
  | 0, d => some d
  | n + 1, d => match d.undo with
    | (.ok _, d') => undoTimes n d'
    | _ => none

/-- Call `redo` `n` times; `none` as soon as one call does not succeed. -/
def redoTimes : Nat → Doc → Option Doc
  | 0, d => some d
  | n + 1, d => match d.redo with
    | (.ok _, d') => redoTimes n d'
    | _ => none

/-- Calls a client can make. -/
inductive Call where
  | edit (e : Edit)
  | execInsert (pos : Nat) (t : Str)
  | execDelete (r : Range)
  | undo
  | redo
  | clearHistory
  | setConfig (cfg : Config)

/-- State after a call, whatever its outcome. -/
def Call.run (d : Doc) : Call → Doc
  | .edit e => (e.run d).2
  | .execInsert pos t => (d.execInsert pos t).2
  | .execDelete r => (d.execDelete r).2
  | .undo => d.undo.2
  | .redo => d.redo.2
  | .clearHistory => { d with hist := d.hist.clear }
  | .setConfig cfg => { d with hist := Stack.new cfg }

/-- Documents reachable from a freshly opened one by any sequence of calls. -/
inductive Reachable : Doc → Prop where
  | init (text : Str) (cfg : Config) : Reachable ⟨text, Stack.new cfg⟩
  | step (d : Doc) (c : Call) : Reachable d → Reachable (c.run d)

/-- Total memory charge of history entries. -/
def charge (l : List Entry) : Nat := (l.map (·.mem)).sum

end Verif.Spec
