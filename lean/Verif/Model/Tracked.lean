import Verif.Model.Batch
/-!
# The cursor, the file and the unsaved changes of a document

`crates/ass-editor/core/document/{constructors,editing,editing_raw,undo_redo,validation,metadata}.rs` and
`crates/ass-editor/core/history/manager.rs`, with what `Model/Doc.lean` leaves out: `modified`, `file_path`, the current cursor and the
cursors of the entries of the history.  These stand in lists beside those of `Doc.Stack`, newest first.  Files are a map from paths to
texts; what `fs::write` leaves behind when it fails is an argument.  `usize` is unbounded.
-/
namespace Verif.Tracked
open Verif Verif.Doc Verif.Pos

/-- Files by their paths. -/
abbrev Files := Str → Option Str

/-- `EditorDocument`, document/types.rs lines 30-72, without the id, the events, the caches and the extensions. -/
structure TDoc where
  text : Str
  modified : Bool
  hist : Stack
  /-- `cursor_before` and `cursor_after` (entry.rs lines 31-35) of the entries to be undone. -/
  undoC : List (Option Nat × Option Nat)
  /-- The same of the entries to be redone. -/
  redoC : List (Option Nat × Option Nat)
  /-- `current_cursor`, manager.rs lines 21-23. -/
  cursor : Option Nat
  path : Option Str
deriving DecidableEq, Repr

/-- `from_content`, constructors.rs lines 140-166 (`Script::parse` never fails, see `Model/IncEdit.lean`); `new`, lines 22-40, is the same
with the empty text. -/
def fromContent (cfg : Config) (s : Str) : TDoc := ⟨s, false, Stack.new cfg, [], [], none, none⟩

/-- `from_file`, constructors.rs lines 50-57. -/
def fromFile (cfg : Config) (fs : Files) (p : Str) : Option TDoc := (fs p).map (fun s => { fromContent cfg s with path := some p })

/-- `insert_raw`, editing_raw.rs lines 12-33. -/
def insertRaw (d : TDoc) (pos : Nat) (t : Str) : Outcome Unit × TDoc :=
  match Doc.insertRaw d.text pos t with
  | (.ok _, s) => (.ok (), { d with text := s, modified := true })
  | (o, s) => (o, { d with text := s })

/-- `delete_raw`, editing_raw.rs lines 36-60. -/
def deleteRaw (d : TDoc) (r : Range) : Outcome Unit × TDoc :=
  match Doc.deleteRaw d.text r with
  | (.ok _, s) => (.ok (), { d with text := s, modified := true })
  | (o, s) => (o, { d with text := s })

/-- `replace_raw`, editing_raw.rs lines 63-67. -/
def replaceRaw (d : TDoc) (r : Range) (t : Str) : Outcome Unit × TDoc :=
  match deleteRaw d r with
  | (.ok _, d1) => insertRaw d1 r.start t
  | (o, d1) => (o, d1)

/-- `record_operation`, manager.rs lines 61-92, of a result with the cursor `c`; the entries that `push` (stack_impl.rs lines 41-64)
drops are the oldest. -/
def record (d : TDoc) (op : Doc.Op) (desc : Nat) (c : Nat) : TDoc :=
  let h := d.hist.push ⟨op, op.memory d.hist.cfg + desc⟩
  { d with hist := h, undoC := ((d.cursor, some c) :: d.undoC).take h.undo.length, redoC := [], cursor := some c }

/-- `insert`, editing.rs lines 42-69; the cursor is that of text_commands.rs line 59. -/
def insert (d : TDoc) (pos : Nat) (t : Str) : Outcome Unit × TDoc :=
  match insertRaw d pos t with
  | (.ok _, d1) => (.ok (), record d1 (.insert pos t) insertDesc (pos + byteLen t))
  | (o, d1) => (o, d1)

/-- `delete`, editing.rs lines 72-101; the cursor is that of text_commands.rs line 106. -/
def delete (d : TDoc) (r : Range) : Outcome Unit × TDoc :=
  match textRange d.text r with
  | .err => (.err, d)
  | .panic => (.panic, d)
  | .ok deleted =>
    match deleteRaw d r with
    | (.ok _, d1) => (.ok (), record d1 (.delete r deleted) deleteDesc r.start)
    | (o, d1) => (o, d1)

/-- `replace`, editing.rs lines 104-135; the cursor is that of text_commands.rs line 150. -/
def replace (d : TDoc) (r : Range) (t : Str) : Outcome Unit × TDoc :=
  match textRange d.text r with
  | .err => (.err, d)
  | .panic => (.panic, d)
  | .ok old =>
    match replaceRaw d r t with
    | (.ok _, d1) => (.ok (), record d1 (.replace r old t) replaceDesc (r.start + byteLen t))
    | (o, d1) => (o, d1)

/-- The text change of `undo`, undo_redo.rs lines 30-57. -/
def undoRaw (d : TDoc) : Doc.Op → Outcome Unit × TDoc
  | .insert pos t => deleteRaw d (Range.new pos (pos + byteLen t))
  | .delete r x => insertRaw d r.start x
  | .replace r old _ => replaceRaw d r old

/-- The text change of `redo`, undo_redo.rs lines 108-130. -/
def redoRaw (d : TDoc) : Doc.Op → Outcome Unit × TDoc
  | .insert pos t => insertRaw d pos t
  | .delete r _ => deleteRaw d r
  | .replace r _ new => replaceRaw d r new

/-- `undo`, undo_redo.rs lines 21-93: the cursor it reports.  The current cursor stays. -/
def undo (d : TDoc) : Outcome (Option Nat) × TDoc :=
  match d.hist.popUndo, d.undoC with
  | some (e, h), c :: cs =>
    match undoRaw { d with hist := h, undoC := cs } e.op with
    | (.ok _, d1) => (.ok c.1, { d1 with hist := d1.hist.pushRedo e, redoC := c :: d1.redoC })
    | (.err, d1) => (.err, d1)
    | (.panic, d1) => (.panic, d1)
  | _, _ => (.err, d)

/-- `redo`, undo_redo.rs lines 99-164: the cursor it reports. -/
def redo (d : TDoc) : Outcome (Option Nat) × TDoc :=
  match d.hist.popRedo, d.redoC with
  | some (e, h), c :: cs =>
    match redoRaw { d with hist := h, redoC := cs } e.op with
    | (.ok _, d1) =>
      let h1 := d1.hist.push e
      (.ok c.2, { d1 with hist := h1, undoC := (c :: d1.undoC).take h1.undo.length, redoC := [], cursor := c.2.or d1.cursor })
    | (.err, d1) => (.err, d1)
    | (.panic, d1) => (.panic, d1)
  | _, _ => (.err, d)

/-- The text commands, text_commands.rs. -/
inductive TextCmd where
  | insert (pos : Nat) (t : Str)
  | delete (r : Range)
  | replace (r : Range) (t : Str)
deriving DecidableEq, Repr

/-- `execute` of the text commands, text_commands.rs lines 53-60, 100-107, 144-151. -/
def TextCmd.run (d : TDoc) : TextCmd → Outcome Unit × TDoc
  | .insert pos t => insertRaw d pos t
  | .delete r => deleteRaw d r
  | .replace r t => replaceRaw d r t

/-- The cursor they report. -/
def TextCmd.cursor : TextCmd → Nat
  | .insert pos t => pos + byteLen t
  | .delete r => r.start
  | .replace r t => r.start + byteLen t

/-- The range they report. -/
def TextCmd.range : TextCmd → Range
  | .insert pos t => Range.new pos (pos + byteLen t)
  | .delete r => Range.new r.start r.start
  | .replace r t => Range.new r.start (r.start + byteLen t)

/-- Their descriptions, text_commands.rs lines 63, 110, 154. -/
def TextCmd.desc : TextCmd → Str
  | .insert .. => "Insert text".toList
  | .delete .. => "Delete text".toList
  | .replace .. => "Replace text".toList

/-- `execute_command`, validation.rs lines 45-119, with a text command: the cursor is set (lines 105-108) before the entry is
made (lines 110-112). -/
def exec (d : TDoc) (c : TextCmd) : Outcome Unit × TDoc :=
  match c.run d with
  | (.ok _, d1) =>
    match Batch.operation c.desc d1.text ⟨true, some c.range, some c.cursor, true⟩ with
    | .ok op => (.ok (), record { d1 with cursor := some c.cursor } op (byteLen c.desc) c.cursor)
    | .err => (.err, d1)
    | .panic => (.panic, d1)
  | (o, d1) => (o, d1)

/-- `save_to_file`, constructors.rs lines 72-80; `fault`: what a failing `fs::write` leaves in the file. -/
def saveTo (d : TDoc) (fs : Files) (p : Str) (fault : Option (Option Str)) : Outcome Unit × TDoc × Files :=
  match fault with
  | none => (.ok (), { d with modified := false, path := some p }, fun q => if q = p then some d.text else fs q)
  | some x => (.err, d, fun q => if q = p then x else fs q)

/-- `save`, constructors.rs lines 60-69. -/
def save (d : TDoc) (fs : Files) (fault : Option (Option Str)) : Outcome Unit × TDoc × Files :=
  match d.path with
  | some p => saveTo d fs p fault
  | none => (.err, d, fs)

/-- `set_cursor_position`, metadata.rs lines 65-68. -/
def setCursor (d : TDoc) (c : Option Nat) : TDoc := { d with cursor := c }

/-- `set_file_path`, metadata.rs lines 28-31. -/
def setPath (d : TDoc) (p : Option Str) : TDoc := { d with path := p }

/-- `set_modified`, metadata.rs lines 70-73. -/
def setModified (d : TDoc) (b : Bool) : TDoc := { d with modified := b }

/-- What is done with a document. -/
inductive Act where
  | insert (pos : Nat) (t : Str)
  | delete (r : Range)
  | replace (r : Range) (t : Str)
  | exec (c : TextCmd)
  | undo
  | redo
  | setCursor (c : Option Nat)
  | setPath (p : Option Str)
  | save (fault : Option (Option Str))
  | saveTo (p : Str) (fault : Option (Option Str))
deriving DecidableEq, Repr

/-- The outcome without what is reported. -/
def plain : Outcome (Option Nat) → Outcome Unit
  | .ok _ => .ok ()
  | .err => .err
  | .panic => .panic

/-- One act on a document and the files. -/
def step (d : TDoc) (fs : Files) : Act → Outcome Unit × TDoc × Files
  | .insert pos t => ((insert d pos t).1, (insert d pos t).2, fs)
  | .delete r => ((delete d r).1, (delete d r).2, fs)
  | .replace r t => ((replace d r t).1, (replace d r t).2, fs)
  | .exec c => ((exec d c).1, (exec d c).2, fs)
  | .undo => (plain (undo d).1, (undo d).2, fs)
  | .redo => (plain (redo d).1, (redo d).2, fs)
  | .setCursor c => (.ok (), setCursor d c, fs)
  | .setPath p => (.ok (), setPath d p, fs)
  | .save f => save d fs f
  | .saveTo p f => saveTo d fs p f

end Verif.Tracked
