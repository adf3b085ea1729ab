import Verif.Model.Doc
import Verif.Model.StrX
/-!
# Commands and batches of commands — `crates/ass-editor/commands/{text_commands,batch_command,command_result,fluent_builder}.rs`,
`crates/ass-editor/core/document/validation.rs`

A command is what it does to the text together with the result it reports; messages, deltas and the validation cache are left out.
-/
namespace Verif.Batch
open Verif Verif.Pos Verif.Doc

/-- `CommandResult`, command_result.rs lines 20-39, without the message and the delta. -/
structure Result where
  ok : Bool
  range : Option Range
  cursor : Option Nat
  changed : Bool
deriving DecidableEq

/-- `CommandResult::success`, lines 43-53. -/
def success : Result := ⟨true, none, none, false⟩
/-- `CommandResult::success_with_change`, lines 56-66. -/
def change (r : Range) (c : Nat) : Result := ⟨true, some r, some c, true⟩
/-- `CommandResult::failure`, lines 69-79. -/
def failure : Result := ⟨false, none, none, false⟩

/-- `EditorCommand::execute`: outcome and text afterwards. -/
abbrev Cmd := Str → Outcome Result × Str

/-- The result of a change of the text: `r` if it succeeded. -/
def report (r : Result) : Outcome Unit × Str → Outcome Result × Str
  | (.ok _, s) => (.ok r, s)
  | (.err, s) => (.err, s)
  | (.panic, s) => (.panic, s)

/-- `InsertTextCommand::execute`, text_commands.rs lines 53-60. -/
def insertCmd (pos : Nat) (t : Str) : Cmd := fun s =>
  report (change (Range.new pos (pos + byteLen t)) (pos + byteLen t)) (insertRaw s pos t)

/-- `DeleteTextCommand::execute`, lines 100-107. -/
def deleteCmd (r : Range) : Cmd := fun s => report (change (Range.new r.start r.start) r.start) (deleteRaw s r)

/-- `ReplaceTextCommand::execute`, lines 144-151. -/
def replaceCmd (r : Range) (t : Str) : Cmd := fun s =>
  report (change (Range.new r.start (r.start + byteLen t)) (r.start + byteLen t)) (replaceRaw s r t)

/-- batch_command.rs lines 74-79: the union of the ranges. -/
def joinRange : Option Range → Option Range → Option Range
  | some a, some b => some (a.union b)
  | none, some b => some b
  | a, none => a

/-- What is kept of the results so far, lines 74-87. -/
def join (acc r : Result) : Result := ⟨true, joinRange acc.range r.range, r.cursor.or acc.cursor, acc.changed || r.changed⟩

/-- `BatchCommand::execute`, lines 58-94: an error stops it, as does a command reporting failure. -/
def loop (acc : Result) : List Cmd → Cmd
  | [], s => (.ok acc, s)
  | c :: cs, s =>
    match c s with
    | (.ok r, s') => if r.ok then loop (join acc r) cs s' else (.ok failure, s')
    | (.err, s') => (.err, s')
    | (.panic, s') => (.panic, s')

@[inherit_doc loop] def batch (cs : List Cmd) : Cmd := loop success cs

/-- validation.rs lines 63-75: the text that was inserted, or the error (`?`). -/
def inserted (start : Nat) : Outcome Str → Outcome Doc.Op
  | .ok x => .ok (.insert start x)
  | .err => .err
  | .panic => .panic

/-- validation.rs lines 60-103: the operation to be recorded, from the text after the command and its result; `panic`: the subtraction in
line 69 underflows, or the text range does. -/
def operation (desc : Str) (s : Str) (r : Result) : Outcome Doc.Op :=
  match r.range with
  | none => .ok (.insert 0 [])
  | some rg =>
    if rg.isEmpty then
      match r.cursor with
      | none => inserted rg.start (textRange s (Range.new rg.start rg.start))
      | some c =>
        if c < rg.start then .panic
        else inserted rg.start (textRange s (Range.new rg.start (rg.start + (c - rg.start))))
    else if containsStr "batch".toList desc || containsStr "Multiple".toList desc then .ok (.insert rg.start [])
    else match textRange s rg with
      | .ok x => .ok (.replace rg [] x)
      | .err => .ok (.replace rg [] [])
      | .panic => .panic

/-- `execute_command`, validation.rs lines 45-119, with `record_operation`, manager.rs lines 61-92. -/
def exec (d : Doc.Doc) (desc : Str) (c : Cmd) : Outcome Result × Doc.Doc :=
  match c d.text with
  | (.ok r, s) =>
    if r.changed then
      match operation desc s r with
      | .ok op => (.ok r, if r.ok then Doc.record { d with text := s } op (byteLen desc) else { d with text := s })
      | .err => (.err, { d with text := s })
      | .panic => (.panic, { d with text := s })
    else (.ok r, { d with text := s })
  | (.err, s) => (.err, { d with text := s })
  | (.panic, s) => (.panic, { d with text := s })

/-- `TextCommand` and `DocumentCommandExt`, fluent_builder.rs lines 59-86, 109-122: the command is executed directly. -/
def direct (d : Doc.Doc) (c : Cmd) : Outcome Result × Doc.Doc :=
  match c d.text with
  | (o, s) => (o, { d with text := s })

end Verif.Batch
