import Verif.Model.Bytes
import Verif.Model.Outcome
import Verif.Model.Range
/-!
# Editor document text, edits and undo history

`crates/ass-editor/core/document/{editing,editing_raw,undo_redo,text_access}.rs`,
`crates/ass-editor/core/history/{stack_impl,manager,operation,entry}.rs`,
`crates/ass-editor/commands/text_commands.rs`.

The document text is the `ropey::Rope` of the default feature set, modelled by its
character list (trusted: ropey's `byte_to_char`, `insert`, `remove`, `slice`).  Cursor
positions, event emission, the validation cache, timestamps and the arena are left out: none of
them influences the text or the stacks.  `usize` is unbounded.
-/
namespace Verif.Doc
open Verif Verif.Pos

/-- `Rope::byte_to_char`: number of whole characters before the byte offset (an offset inside
a character counts as that character's index). -/
def byteToChar : Str → Nat → Nat
  | [], _ => 0
  | c :: cs, n => if c.utf8Size ≤ n then byteToChar cs (n - c.utf8Size) + 1 else 0

/-- `text_range`, text_access.rs lines 80-103 (`panic`: slice with start after end). -/
def textRange (s : Str) (r : Range) : Outcome Str :=
  if r.fin > byteLen s then .err
  else
    let a := byteToChar s r.start
    let b := byteToChar s r.fin
    if a ≤ b then .ok ((s.drop a).take (b - a)) else .panic

/-- `insert_raw`, editing_raw.rs lines 12-33: outcome and text afterwards. -/
def insertRaw (s : Str) (pos : Nat) (t : Str) : Outcome Unit × Str :=
  if pos > byteLen s then (.err, s)
  else
    let k := byteToChar s pos
    (.ok (), s.take k ++ t ++ s.drop k)

/-- `delete_raw`, editing_raw.rs lines 36-60 (`Rope::remove` panics if start > end). -/
def deleteRaw (s : Str) (r : Range) : Outcome Unit × Str :=
  if r.fin > byteLen s then (.err, s)
  else
    let a := byteToChar s r.start
    let b := byteToChar s r.fin
    if a ≤ b then (.ok (), s.take a ++ s.drop b) else (.panic, s)

/-- `replace_raw`, editing_raw.rs lines 63-67. -/
def replaceRaw (s : Str) (r : Range) (t : Str) : Outcome Unit × Str :=
  match deleteRaw s r with
  | (.ok _, s1) => insertRaw s1 r.start t
  | (o, s1) => (o, s1)

/-- `Operation`, operation.rs lines 26-45, without the section-level `Delta` variant. -/
inductive Op where
  | insert (pos : Nat) (text : Str)
  | delete (range : Range) (deleted : Str)
  | replace (range : Range) (old new : Str)
  deriving DecidableEq, Repr

/-- `HistoryEntry`, entry.rs lines 21-47: the operation and its memory charge. -/
structure Entry where
  op : Op
  mem : Nat
  deriving DecidableEq, Repr

/-- `UndoStackConfig`, config.rs lines 8-20 (the fields that are used), plus `opSize`, the
platform constant `size_of::<Operation>()`. -/
structure Config where
  maxEntries : Nat
  maxMemory : Nat
  opSize : Nat
  deriving DecidableEq, Repr

/-- `Operation::memory_usage`, operation.rs lines 49-73. -/
def Op.memory (cfg : Config) : Op → Nat
  | .insert _ t => cfg.opSize + byteLen t
  | .delete _ d => cfg.opSize + byteLen d
  | .replace _ o n => cfg.opSize + byteLen o + byteLen n

/-- `UndoStack`, stack.rs lines 23-43; lists are newest first.  `current_memory` is a natural
number with truncated subtraction; `C14_memory_counter` shows the counter always equals the sum
of the stored charges, so no subtraction ever truncates (or, in the code, underflows). -/
structure Stack where
  cfg : Config
  undo : List Entry
  redo : List Entry
  mem : Nat
  deriving DecidableEq, Repr

/-- `UndoStack::with_config`, stack_impl.rs lines 24-35. -/
def Stack.new (cfg : Config) : Stack := ⟨cfg, [], [], 0⟩

/-- First loop of `enforce_limits`, stack_impl.rs lines 160-164, on the oldest-first list. -/
def trimCount (max : Nat) : List Entry → Nat → List Entry × Nat
  | [], m => ([], m)
  | e :: es, m => if (e :: es).length > max then trimCount max es (m - e.mem) else (e :: es, m)

/-- Second loop of `enforce_limits`, stack_impl.rs lines 167-174, on the oldest-first list. -/
def trimMem (max : Nat) : List Entry → Nat → List Entry × Nat
  | [], m => ([], m)
  | e :: es, m => if max > 0 ∧ m > max then trimMem max es (m - e.mem) else (e :: es, m)

/-- `enforce_limits`, stack_impl.rs lines 158-175. -/
def Stack.enforce (s : Stack) : Stack :=
  let (u1, m1) := trimCount s.cfg.maxEntries s.undo.reverse s.mem
  let (u2, m2) := trimMem s.cfg.maxMemory u1 m1
  { s with undo := u2.reverse, mem := m2 }

/-- `clear_redo_stack`, stack_impl.rs lines 151-155. -/
def Stack.clearRedo (s : Stack) : Stack :=
  { s with redo := [], mem := s.redo.foldl (fun m e => m - e.mem) s.mem }

/-- `UndoStack::push`, stack_impl.rs lines 41-64. -/
def Stack.push (s : Stack) (e : Entry) : Stack :=
  let s1 := s.clearRedo
  Stack.enforce { s1 with mem := s1.mem + e.mem, undo := e :: s1.undo }

/-- `UndoStack::pop_undo`, stack_impl.rs lines 67-74. -/
def Stack.popUndo (s : Stack) : Option (Entry × Stack) :=
  match s.undo with
  | [] => none
  | e :: es => some (e, { s with undo := es, mem := s.mem - e.mem })

/-- `UndoStack::push_redo`, stack_impl.rs lines 77-80. -/
def Stack.pushRedo (s : Stack) (e : Entry) : Stack :=
  { s with mem := s.mem + e.mem, redo := e :: s.redo }

/-- `UndoStack::pop_redo`, stack_impl.rs lines 83-90. -/
def Stack.popRedo (s : Stack) : Option (Entry × Stack) :=
  match s.redo with
  | [] => none
  | e :: es => some (e, { s with redo := es, mem := s.mem - e.mem })

/-- `UndoStack::clear`, stack_impl.rs lines 139-148. -/
def Stack.clear (s : Stack) : Stack := { s with undo := [], redo := [], mem := 0 }

/-- The part of `EditorDocument` that edits and undo touch. -/
structure Doc where
  text : Str
  hist : Stack
  deriving DecidableEq, Repr

/-- Record an operation, manager.rs lines 62-92 (text commands always report success and
changed content, text_commands.rs lines 59, 106, 150); `desc` is the length of the command's
description, which is charged too (entry.rs line 57). -/
def Doc.record (d : Doc) (op : Op) (desc : Nat) : Doc :=
  { d with hist := d.hist.push ⟨op, op.memory d.hist.cfg + desc⟩ }

/-- Lengths of "Insert text", "Delete text" and "Replace text", text_commands.rs lines 63, 110,
154. -/
def insertDesc : Nat := 11
@[inherit_doc insertDesc] def deleteDesc : Nat := 11
@[inherit_doc insertDesc] def replaceDesc : Nat := 12

/-- `EditorDocument::insert`, editing.rs lines 42-69. -/
def Doc.insert (d : Doc) (pos : Nat) (t : Str) : Outcome Unit × Doc :=
  match insertRaw d.text pos t with
  | (.ok _, s) => (.ok (), Doc.record { d with text := s } (.insert pos t) insertDesc)
  | (o, s) => (o, { d with text := s })

/-- `EditorDocument::delete`, editing.rs lines 72-101. -/
def Doc.delete (d : Doc) (r : Range) : Outcome Unit × Doc :=
  match textRange d.text r with
  | .err => (.err, d)
  | .panic => (.panic, d)
  | .ok deleted =>
    match deleteRaw d.text r with
    | (.ok _, s) => (.ok (), Doc.record { d with text := s } (.delete r deleted) deleteDesc)
    | (o, s) => (o, { d with text := s })

/-- `EditorDocument::replace`, editing.rs lines 104-135. -/
def Doc.replace (d : Doc) (r : Range) (t : Str) : Outcome Unit × Doc :=
  match textRange d.text r with
  | .err => (.err, d)
  | .panic => (.panic, d)
  | .ok old =>
    match replaceRaw d.text r t with
    | (.ok _, s) => (.ok (), Doc.record { d with text := s } (.replace r old t) replaceDesc)
    | (o, s) => (o, { d with text := s })

/-- The text change made by undoing an operation, undo_redo.rs lines 30-57. -/
def undoText (op : Op) (s : Str) : Outcome Unit × Str :=
  match op with
  | .insert pos t => deleteRaw s (Range.new pos (pos + byteLen t))
  | .delete r d => insertRaw s r.start d
  | .replace r old _ => replaceRaw s r old

/-- The text change made by redoing an operation, undo_redo.rs lines 108-130. -/
def redoText (op : Op) (s : Str) : Outcome Unit × Str :=
  match op with
  | .insert pos t => insertRaw s pos t
  | .delete r _ => deleteRaw s r
  | .replace r _ new => replaceRaw s r new

/-- `EditorDocument::undo`, undo_redo.rs lines 21-93.  When the text change fails the popped
entry is lost (the `?` returns before `push_redo_entry`). -/
def Doc.undo (d : Doc) : Outcome Unit × Doc :=
  match d.hist.popUndo with
  | none => (.err, d)
  | some (e, h) =>
    match undoText e.op d.text with
    | (.ok _, s) => (.ok (), { text := s, hist := h.pushRedo e })
    | (o, s) => (o, { text := s, hist := h })

/-- `EditorDocument::redo`, undo_redo.rs lines 99-164: the new entry carries the same operation
and description, hence the same memory charge. -/
def Doc.redo (d : Doc) : Outcome Unit × Doc :=
  match d.hist.popRedo with
  | none => (.err, d)
  | some (e, h) =>
    match redoText e.op d.text with
    | (.ok _, s) => (.ok (), { text := s, hist := h.push e })
    | (o, s) => (o, { text := s, hist := h })

/-- `execute_command` (validation.rs lines 45-119) for the insert command: the range reported by
the command is [pos, pos+len); when it is empty an (empty) insertion is recorded, otherwise a
replacement whose old text is unknown. -/
def Doc.execInsert (d : Doc) (pos : Nat) (t : Str) : Outcome Unit × Doc :=
  match insertRaw d.text pos t with
  | (.ok _, s) =>
    let r := Range.new pos (pos + byteLen t)
    let d1 := { d with text := s }
    if r.isEmpty then
      match textRange s r with
      | .ok x => (.ok (), d1.record (.insert pos x) insertDesc)
      | .err => (.err, d1)
      | .panic => (.panic, d1)
    else
      match textRange s r with
      | .ok x => (.ok (), d1.record (.replace r [] x) insertDesc)
      | .err => (.ok (), d1.record (.replace r [] []) insertDesc)
      | .panic => (.panic, d1)
  | (o, s) => (o, { d with text := s })

/-- `execute_command` (validation.rs lines 45-119) for the delete command: the reported range is
empty and the cursor is at its start, so the insertion of an empty text is recorded. -/
def Doc.execDelete (d : Doc) (r : Range) : Outcome Unit × Doc :=
  match deleteRaw d.text r with
  | (.ok _, s) =>
    let d1 := { d with text := s }
    match textRange s (Range.new r.start r.start) with
    | .ok x => (.ok (), d1.record (.insert r.start x) deleteDesc)
    | .err => (.err, d1)
    | .panic => (.panic, d1)
  | (o, s) => (o, { d with text := s })

end Verif.Doc
