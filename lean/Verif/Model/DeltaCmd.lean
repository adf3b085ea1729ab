import Verif.Model.IncEdit
/-!
# Commands that edit incrementally — `crates/ass-editor/commands/delta_commands/{insert,replace,event_edit,batch}.rs`

With the default features, so that every command supports incremental editing.  Messages and descriptions are left out.
-/
namespace Verif.DeltaCmd
open Verif
open Verif.Pos
open Verif.Doc
open Verif.Parser (Section)
open Verif.DeltaApply (Delta)
open Verif.IncEdit

/-- `CommandResult`, command_result.rs lines 20-39, without the message. -/
structure Result where
  success : Bool
  range : Option Range
  cursor : Option Nat
  changed : Bool
  delta : Option Delta
deriving DecidableEq, Repr

/-- The commands: insert.rs lines 11-14, replace.rs lines 11-14, event_edit.rs lines 11-14. -/
inductive Cmd where
  | insert (pos : Nat) (text : Str)
  | replace (range : Range) (text : Str)
  | event (old new : Str)
deriving DecidableEq, Repr

/-- `EditorDocument::insert`, editing.rs lines 42-69. -/
def insertDoc (d : IDoc) (pos : Nat) (t : Str) : Outcome Unit × IDoc :=
  match insertRaw d.text pos t with
  | (.ok _, s) => (.ok (), { d with text := s }.record (.text (.insert pos t)))
  | (o, s) => (o, { d with text := s })

/-- `edit_event_text`, ass_api.rs lines 106-115. -/
def editEventText (d : IDoc) (old new : Str) : Outcome Unit × IDoc :=
  match splitOnceStr old d.text with
  | none => (.ok (), d)
  | some (a, _) => d.replace (Range.new (byteLen a) (byteLen a + byteLen old)) new

/-- The result of a command that knows its place: insert.rs lines 31-44 and 56-62, replace.rs lines 31-46 and 58-64. -/
def placed (start len : Nat) (delta : Option Delta) : Result :=
  ⟨true, some (Range.new start (start + len)), some (start + len), true, delta⟩

/-- The incremental call of a command: insert.rs line 29, replace.rs line 29, event_edit.rs line 29. -/
def attempt (dbg : Section → Str) (d : IDoc) : Cmd → Outcome Delta × IDoc
  | .insert pos t => insertInc dbg d pos t
  | .replace r t => edit dbg d r t
  | .event old new => editEvent dbg d old new

/-- What is done when that fails: insert.rs line 55, replace.rs line 57, event_edit.rs line 52. -/
def regular (d : IDoc) : Cmd → Outcome Unit × IDoc
  | .insert pos t => insertDoc d pos t
  | .replace r t => d.replace r t
  | .event old new => editEventText d old new

/-- The result reported. -/
def result (c : Cmd) (delta : Option Delta) : Result :=
  match c with
  | .insert pos t => placed pos (byteLen t) delta
  | .replace r t => placed r.start (byteLen t) delta
  | .event _ _ => ⟨true, none, none, true, delta⟩

/-- `execute_with_delta`, insert.rs lines 24-64, replace.rs lines 24-66, event_edit.rs lines 24-66. -/
def execute (dbg : Section → Str) (d : IDoc) (c : Cmd) : Outcome Result × IDoc :=
  match attempt dbg d c with
  | (.ok δ, d') => (.ok (result c (some δ)), d')
  | (.panic, d') => (.panic, d')
  | (.err, d') => match regular d' c with
    | (.ok _, d'') => (.ok (result c none), d'')
    | (.err, d'') => (.err, d'')
    | (.panic, d'') => (.panic, d'')

/-- `execute_batch`, batch.rs lines 29-41. -/
def executeBatch (dbg : Section → Str) (d : IDoc) : List Cmd → Outcome (List Result) × IDoc
  | [] => (.ok [], d)
  | c :: r => match execute dbg d c with
    | (.ok x, d') => match executeBatch dbg d' r with
      | (.ok xs, d'') => (.ok (x :: xs), d'')
      | (.err, d'') => (.err, d'')
      | (.panic, d'') => (.panic, d'')
    | (.err, d') => (.err, d')
    | (.panic, d') => (.panic, d')

end Verif.DeltaCmd
