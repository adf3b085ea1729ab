import Verif.Model.Lint
import Verif.Model.Doc
/-!
# A document and its validator — `crates/ass-editor/core/document/{validation,editing,undo_redo}.rs`, `commands/text_commands.rs`

`from_content` (constructors.rs lines 140-166), which is given the text to be validated, does not fail, and its text is the one given.
`alone` and `child` are as in `Model/Lint.lean`.  A panic ends the program; the state after it is of no meaning.
-/
namespace Verif.DocValid
open Verif Verif.Pos Verif.Lint
open Verif.Ast (Style)

/-- `EditorDocument`, its text, history and validator. -/
structure VDoc where
  doc : Doc.Doc
  val : Validator

/-- `from_content`. -/
def VDoc.ofText (cfg : Doc.Config) (c : VConfig) (s : Str) : VDoc := ⟨⟨s, Doc.Stack.new cfg⟩, Validator.new c⟩

/-- The cache is cleared once an edit has succeeded: editing.rs lines 58, 91 and 124, validation.rs line 115. -/
def cleared (v : Validator) : Outcome Unit → Validator
  | .ok _ => v.clear
  | _ => v

/-- `insert`, `delete` and `replace`, editing.rs lines 42-135. -/
def VDoc.insert (d : VDoc) (pos : Nat) (t : Str) : Outcome Unit × VDoc :=
  ((d.doc.insert pos t).1, ⟨(d.doc.insert pos t).2, cleared d.val (d.doc.insert pos t).1⟩)
@[inherit_doc VDoc.insert] def VDoc.delete (d : VDoc) (r : Range) : Outcome Unit × VDoc :=
  ((d.doc.delete r).1, ⟨(d.doc.delete r).2, cleared d.val (d.doc.delete r).1⟩)
@[inherit_doc VDoc.insert] def VDoc.replace (d : VDoc) (r : Range) (t : Str) : Outcome Unit × VDoc :=
  ((d.doc.replace r t).1, ⟨(d.doc.replace r t).2, cleared d.val (d.doc.replace r t).1⟩)

/-- `execute_command` with an insertion or a deletion, validation.rs lines 45-119. -/
def VDoc.execInsert (d : VDoc) (pos : Nat) (t : Str) : Outcome Unit × VDoc :=
  ((d.doc.execInsert pos t).1, ⟨(d.doc.execInsert pos t).2, cleared d.val (d.doc.execInsert pos t).1⟩)
@[inherit_doc VDoc.execInsert] def VDoc.execDelete (d : VDoc) (r : Range) : Outcome Unit × VDoc :=
  ((d.doc.execDelete r).1, ⟨(d.doc.execDelete r).2, cleared d.val (d.doc.execDelete r).1⟩)

/-- `undo` and `redo`, undo_redo.rs lines 21-164: the validator is left alone. -/
def VDoc.undo (d : VDoc) : Outcome Unit × VDoc := (d.doc.undo.1, { d with doc := d.doc.undo.2 })
@[inherit_doc VDoc.undo] def VDoc.redo (d : VDoc) : Outcome Unit × VDoc := (d.doc.redo.1, { d with doc := d.doc.redo.2 })

/-- `InsertTextCommand::execute` called by the client, text_commands.rs lines 50-61: `insert_raw`, nothing else. -/
def VDoc.rawInsert (d : VDoc) (pos : Nat) (t : Str) : Outcome Unit × VDoc :=
  ((Doc.insertRaw d.doc.text pos t).1, { d with doc := { d.doc with text := (Doc.insertRaw d.doc.text pos t).2 } })

/-- `validate_comprehensive`, validation.rs lines 125-131, at time `now`. -/
def VDoc.validate (alone child : Style → Bool) (d : VDoc) (now : Nat) : Outcome Result × VDoc :=
  match d.val.validate alone child now d.doc.text with
  | .ok (r, v) => (.ok r, { d with val := v })
  | .err => (.err, d)
  | .panic => (.panic, d)

/-- `force_validate`, validation.rs lines 134-139. -/
def VDoc.force (alone child : Style → Bool) (d : VDoc) (now : Nat) : Outcome Result × VDoc :=
  match d.val.force alone child now d.doc.text with
  | .ok (r, v) => (.ok r, { d with val := v })
  | .err => (.err, { d with val := { d.val with cached := none } })
  | .panic => (.panic, { d with val := { d.val with cached := none } })

/-- `is_valid_cached`, validation.rs lines 142-146, with `is_valid`, api.rs lines 64-66. -/
def VDoc.isValid (alone child : Style → Bool) (d : VDoc) (now : Nat) : Outcome Bool × VDoc :=
  match d.validate alone child now with
  | (.ok r, d') => (.ok r.valid, d')
  | (.err, d') => (.err, d')
  | (.panic, d') => (.panic, d')

/-- `validation_result`, validation.rs lines 149-151, with `cached_result`, api.rs lines 69-71. -/
def VDoc.remembered (d : VDoc) : Option Result := d.val.cached

/-- `set_validator_config`, validation.rs lines 154-156. -/
def VDoc.setConfig (d : VDoc) (c : VConfig) : VDoc := { d with val := d.val.setConfig c }

end Verif.DocValid
