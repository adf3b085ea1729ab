import Verif.Model.DeltaApply
import Verif.Model.Incremental
/-!
# Incremental editing of a document

`crates/ass-editor/core/document/{incremental_edit,incremental_fast,incremental_parse,delta_undo,delta_sections,undo_redo}.rs`,
`crates/ass-editor/core/incremental/{apply,reparse,state}.rs` and `parse_partial` (`crates/ass-core/parser/script/partial.rs`), with the
default features.  The limits of the history (see `Model/Doc.lean`), cursors, events sent, time stamps and the contents of
`pending_changes`, of which only the number is used, are left out.  `Script::parse` never fails in the model (it collects issues), as in
the code.  `dbg` is the output of `{:?}` for a section.
-/
namespace Verif.IncEdit
open Verif
open Verif.Pos
open Verif.Doc
open Verif.Update (Kind kind)
open Verif.Parser (Script Section parse)
open Verif.DeltaApply (Delta header findStart endsLf applyText)

/-- `IncrementalParser`, incremental/types.rs lines 40-55. -/
structure Cache where
  cached : Option Str
  pending : Nat
  bytes : Nat
  threshold : Nat
deriving DecidableEq, Repr

/-- `IncrementalParser::new`, state.rs lines 16-24. -/
def Cache.new : Cache := ⟨none, 0, 0, 10000⟩

/-- `initialize_cache`, state.rs lines 33-37. -/
def Cache.init (c : Cache) (content : Str) : Cache := { c with cached := some content, pending := 0, bytes := 0 }

/-- `clear_cache`, state.rs lines 58-63. -/
def Cache.clear (c : Cache) : Cache := { c with cached := none, pending := 0, bytes := 0 }

/-- `should_reparse`, state.rs lines 71-73. -/
def Cache.shouldReparse (c : Cache) : Bool := decide (c.bytes ≥ c.threshold) || decide (c.pending > 50)

/-- A delta with its sections written by `{:?}`, partial.rs lines 62-83, reparse.rs lines 29-49; without the issues. -/
def owned (dbg : Section → Str) (d : Update.Delta) : Delta := ⟨d.added.map dbg, d.modified.map (fun p => (p.1, dbg p.2)), d.removed⟩

/-- `parse_partial`, partial.rs lines 43-86, on the script of the source `src`; `none`: slicing panics. -/
def parsePartial (dbg : Section → Str) (src : Str) (s : Script) (r : Range) (new : Str) : Option Delta :=
  (Incremental.modifiedSource src r.start r.fin new).map
    (fun t => owned dbg (Update.delta s (Incremental.parseIncremental s t ⟨r.start, r.fin, new⟩)))

/-- What everything being new is reported as, reparse.rs lines 52-61. -/
def allNew (dbg : Section → Str) (s : Script) : Delta := ⟨s.sections.map dbg, [], []⟩

/-- The delta of a full parse, reparse.rs lines 22-62. -/
def fullDelta (dbg : Section → Str) (cached : Option Str) (new : Script) : Option Delta :=
  match cached with
  | none => some (allNew dbg new)
  | some old => (parse old).map (fun s => owned dbg (Update.delta s new))

/-- `full_reparse`, reparse.rs lines 17-70. -/
def fullReparse (dbg : Section → Str) (c : Cache) (content : Str) : Outcome Delta × Cache :=
  match (parse content).bind (fullDelta dbg c.cached) with
  | none => (.err, c)
  | some δ => (.ok δ, { c with cached := some content, pending := 0, bytes := 0 })

/-- `is_char_boundary`, also 0 and the length. -/
def boundary (s : Str) (n : Nat) : Bool := (takeBytes s n).isSome

/-- `abs_diff`, apply.rs line 72. -/
def absDiff (a b : Nat) : Nat := max a b - min a b

/-- The text replaced in the cache, reparse.rs lines 94-109. -/
def updated (cached : Str) (r : Range) (new : Str) : Option Str := Incremental.modifiedSource cached r.start r.fin new

/-- The part of `apply_change` with a cached script, apply.rs lines 56-106; `update_cached_script` (reparse.rs lines 73-113) cannot fail
once `parse_partial` has sliced the same text at the same places.  `parse_partial` never returns an error. -/
def applyCached (dbg : Section → Str) (c : Cache) (cached : Str) (r : Range) (new : Str) : Outcome Delta × Cache :=
  match parse cached with
  | none => (.err, { c with pending := c.pending + 1, bytes := c.bytes + absDiff (byteLen new) (r.fin - r.start) })
  | some s => match parsePartial dbg cached s r new with
    | none => (.panic, c)
    | some δ => (.ok δ, ⟨updated cached r new, c.pending + 1, c.bytes + absDiff (byteLen new) (r.fin - r.start), c.threshold⟩)

/-- `apply_change`, apply.rs lines 20-107. -/
def applyChange (dbg : Section → Str) (c : Cache) (text : Str) (r : Range) (new : Str) : Outcome Delta × Cache :=
  match c.cached with
  | none => fullReparse dbg c text
  | some cached =>
    if c.bytes ≥ c.threshold then fullReparse dbg c text
    else if r.fin > byteLen text ∨ r.start > r.fin then (.err, c)
    else if !boundary text r.start || !boundary text r.fin then (.err, c)
    else applyCached dbg c cached r new

/-- `Operation` with its section-level variant, operation.rs lines 26-45. -/
inductive Op where
  | text (op : Doc.Op)
  | delta (forward : Delta) (removed modified : List (Nat × Str))
deriving DecidableEq, Repr

/-- The part of `EditorDocument` that incremental edits touch; histories newest first. -/
structure IDoc where
  text : Str
  cache : Cache
  undo : List Op
  redo : List Op
deriving DecidableEq, Repr

/-- `EditorDocument::new`, constructors.rs lines 22-40. -/
def IDoc.new : IDoc := ⟨[], .new, [], []⟩

/-- `from_content`, constructors.rs lines 140-166. -/
def IDoc.fromContent (s : Str) : IDoc := ⟨s, Cache.new.init s, [], []⟩

/-- An operation recorded: the redo list is cleared (stack_impl.rs lines 41-64). -/
def IDoc.record (d : IDoc) (op : Op) : IDoc := { d with undo := op :: d.undo, redo := [] }

/-- `replace`, editing.rs lines 104-135. -/
def IDoc.replace (d : IDoc) (r : Range) (new : Str) : Outcome Unit × IDoc :=
  match textRange d.text r with
  | .err => (.err, d)
  | .panic => (.panic, d)
  | .ok old =>
    match replaceRaw d.text r new with
    | (.ok _, s) => (.ok (), { d with text := s }.record (.text (.replace r old new)))
    | (o, s) => (o, { d with text := s })

/-- `edit_incremental_fallback`, incremental_fast.rs lines 75-90. -/
def fallback (d : IDoc) (r : Range) (new : Str) : Outcome Delta × IDoc :=
  match d.replace r new with
  | (.ok _, d') => (.ok ⟨[], [], []⟩, d')
  | (.err, d') => (.err, d')
  | (.panic, d') => (.panic, d')

/-- The old text, incremental_fast.rs lines 36-40. -/
def oldText (s : Str) (r : Range) : Outcome Str := if r.isEmpty then .ok [] else textRange s r

/-- `edit_fast_path`, incremental_fast.rs lines 21-72. -/
def fastPath (d : IDoc) (r : Range) (new : Str) : Outcome Delta × IDoc :=
  if !boundary d.text r.start || !boundary d.text r.fin then fallback d r new
  else match oldText d.text r with
    | .err => (.err, d)
    | .panic => (.panic, d)
    | .ok old => match replaceRaw d.text r new with
      | (.ok _, s) => (.ok ⟨[], [], []⟩, { d with text := s }.record (.text (.replace r old new)))
      | (.err, s) => (.err, { d with text := s })
      | (.panic, s) => (.panic, { d with text := s })

/-- Whether the edit takes the short way, incremental_edit.rs lines 32-35. -/
def simple (r : Range) (new : Str) : Bool :=
  decide (byteLen new ≤ 100) && !new.contains '[' && decide (new.count '\n' ≤ 1) && decide (r.len ≤ 50)

/-- The last resort, incremental_edit.rs lines 72-77. -/
def minimal : Delta := ⟨[], [(0, "Script modified".toList)], []⟩

/-- The second attempt, incremental_edit.rs lines 59-79. -/
def again (dbg : Section → Str) (c : Cache) (text : Str) (r : Range) (new : Str) : Outcome Delta × Cache :=
  match applyChange dbg (if c.shouldReparse then c.clear else c) text r new with
  | (.err, c') => (.ok minimal, c')
  | x => x

/-- The delta reported and the parser afterwards, incremental_edit.rs lines 48-81. -/
def report (dbg : Section → Str) (c : Cache) (text : Str) (r : Range) (new : Str) : Outcome Delta × Cache :=
  match applyChange dbg c text r new with
  | (.err, c') => again dbg c' text r new
  | x => x

/-- `extract_section_text`, delta_undo.rs lines 80-118.  The closure given to `find` does not look at the character: it is the same
question for all of them, whether the text right after the header begins with a header. -/
def extract (text : Str) (k : Kind) : Option Str :=
  match splitOnceStr (header k) text with
  | none => none
  | some (_, rest) =>
    if rest ≠ [] ∧ [Kind.info, .styles, .events, .fonts, .graphics].any (fun h => (header h).isPrefixOf rest) then some (header k)
    else some (header k ++ rest)

/-- The text kept for a section, delta_undo.rs lines 44-54 and 57-67. -/
def captured (text : Str) (kinds : List Kind) (i : Nat) : List (Nat × Str) :=
  match kinds[i]? with
  | none => []
  | some k => [(i, (extract text k).getD [])]

/-- Whether the undo data are left out, delta_undo.rs line 33. -/
def few (δ : Delta) : Bool := decide (δ.added.length + δ.removed.length + δ.modified.length ≤ 2)

/-- `capture_delta_undo_data`, delta_undo.rs lines 20-77: removed and modified sections. -/
def capture (text : Str) (δ : Delta) : Option (List (Nat × Str) × List (Nat × Str)) :=
  if few δ then some ([], [])
  else (parse text).map (fun s => (δ.removed.flatMap (captured text (s.sections.map kind)),
    (δ.modified.map Prod.fst).flatMap (captured text (s.sections.map kind))))

/-- The rest of a long edit once the delta is known, incremental_edit.rs lines 83-120. -/
def commit (d : IDoc) (c : Cache) (δ : Delta) (r : Range) (new : Str) : Outcome Delta × IDoc :=
  match capture d.text δ with
  | none => (.err, { d with cache := c })
  | some (rem, mod) => match replaceRaw d.text r new with
    | (.ok _, s) => (.ok δ, { text := s, cache := c, undo := .delta δ rem mod :: d.undo, redo := [] })
    | (.err, s) => (.err, { text := s, cache := c, undo := .delta δ rem mod :: d.undo, redo := [] })
    | (.panic, s) => (.panic, { text := s, cache := c, undo := .delta δ rem mod :: d.undo, redo := [] })

/-- The long way, incremental_edit.rs lines 41-120. -/
def longPath (dbg : Section → Str) (d : IDoc) (r : Range) (new : Str) : Outcome Delta × IDoc :=
  match textRange d.text r with
  | .err => (.err, d)
  | .panic => (.panic, d)
  | .ok _ => match report dbg d.cache d.text r new with
    | (.ok δ, c) => commit d c δ r new
    | (.err, c) => (.err, { d with cache := c })
    | (.panic, c) => (.panic, { d with cache := c })

/-- `edit_incremental`, incremental_edit.rs lines 28-121. -/
def edit (dbg : Section → Str) (d : IDoc) (r : Range) (new : Str) : Outcome Delta × IDoc :=
  if simple r new then fastPath d r new else longPath dbg d r new

/-- `insert_incremental`, incremental_edit.rs lines 124-127. -/
def insertInc (dbg : Section → Str) (d : IDoc) (pos : Nat) (new : Str) : Outcome Delta × IDoc := edit dbg d (Range.new pos pos) new

/-- `delete_incremental`, incremental_edit.rs lines 130-132. -/
def deleteInc (dbg : Section → Str) (d : IDoc) (r : Range) : Outcome Delta × IDoc := edit dbg d r []

/-- `edit_safe`, incremental_parse.rs lines 31-46. -/
def editSafe (dbg : Section → Str) (d : IDoc) (r : Range) (new : Str) : Outcome Unit × IDoc :=
  match edit dbg d r new with
  | (.ok _, d') => (.ok (), d')
  | (.err, d') => d'.replace r new
  | (.panic, d') => (.panic, d')

/-- `edit_event_incremental`, incremental_parse.rs lines 50-64. -/
def editEvent (dbg : Section → Str) (d : IDoc) (old new : Str) : Outcome Delta × IDoc :=
  match splitOnceStr old d.text with
  | none => (.err, d)
  | some (a, _) => edit dbg d (Range.new (byteLen a) (byteLen a + byteLen old)) new

/-! ## Undo and redo -/

/-- The end of a section, `find_section_end_from_start`, delta_sections.rs lines 159-180; the header is not empty and its first byte is a
character. -/
def sectionEnd (text : Str) (start : Nat) : Outcome Nat :=
  match dropBytes text (start + 1) with
  | none => .panic
  | some rest => .ok ([Kind.info, .styles, .events, .fonts, .graphics].foldl (fun fin k =>
      match Search.find (header k) rest with
      | some pos => if start + 1 + pos < fin then start + 1 + pos else fin
      | none => fin) (byteLen text))

/-- The kind of the section at an index. -/
def kindAt (text : Str) (i : Nat) : Option Kind := (parse text).bind (fun s => (s.sections.map kind)[i]?)

/-- The kind of the last section, delta_sections.rs line 125. -/
def lastKind (text : Str) : Option Kind := (parse text).bind (fun s => (s.sections.map kind).getLast?)

/-- `replace_section` and, with `none`, `remove_last_section`: the section with a header replaced or deleted, delta_sections.rs lines
106-114 and 139-144. -/
def putSection (text : Str) (k : Kind) (new : Option Str) : Outcome Unit × Str :=
  match findStart text k with
  | none => (.err, text)
  | some start => match sectionEnd text start with
    | .err => (.err, text)
    | .panic => (.panic, text)
    | .ok fin => match new with
      | some t => replaceRaw text (Range.new start fin) t
      | none => deleteRaw text (Range.new start fin)

/-- `replace_section`, delta_sections.rs lines 87-117. -/
def replaceSection (text : Str) (i : Nat) (new : Str) : Outcome Unit × Str :=
  match kindAt text i with
  | none => (.ok (), text)
  | some k => putSection text k (some new)

/-- `remove_last_section`, delta_sections.rs lines 120-147. -/
def removeLast (text : Str) : Outcome Unit × Str :=
  match lastKind text with
  | none => (.ok (), text)
  | some k => putSection text k none

/-- The section put at the end, delta_sections.rs lines 24-40. -/
def appended (text t : Str) : Str :=
  let text1 := if text ≠ [] ∧ !endsLf text then text ++ ['\n'] else text
  if endsLf t then text1 ++ t else text1 ++ t ++ ['\n']

/-- `insert_section_at`, delta_sections.rs lines 19-84. -/
def insertSection (text : Str) (i : Nat) (t : Str) : Outcome Unit × Str :=
  match kindAt text i with
  | none => (.ok (), appended text t)
  | some k => match findStart text k with
    | none => (.err, text)
    | some pos =>
      insertRaw text pos ((if endsLf t then t else t ++ ['\n']) ++ (if pos < byteLen text then ['\n'] else []))

/-- A loop that ends with the first failure. -/
def steps {α : Type} (f : Str → α → Outcome Unit × Str) : List α → Str → Outcome Unit × Str
  | [], s => (.ok (), s)
  | x :: l, s => match f s x with
    | (.ok _, s') => steps f l s'
    | (o, s') => (o, s')

/-- One after the other. -/
def thenDo (x : Outcome Unit × Str) (f : Str → Outcome Unit × Str) : Outcome Unit × Str :=
  match x with
  | (.ok _, s) => f s
  | (o, s) => (o, s)

/-- What undoing an operation does to the text, undo_redo.rs lines 30-77. -/
def undoText : Op → Str → Outcome Unit × Str
  | .text op, s => Doc.undoText op s
  | .delta f rem mod, s =>
    thenDo (thenDo (steps (fun s p => insertSection s p.1 p.2) rem s) (steps (fun s p => replaceSection s p.1 p.2) mod))
      (steps (fun s _ => removeLast s) f.added)

/-- What doing an operation again does to the text, undo_redo.rs lines 108-140. -/
def redoText : Op → Str → Outcome Unit × Str
  | .text op, s => Doc.redoText op s
  | .delta f _ _, s => applyText s f

/-- `undo`, undo_redo.rs lines 21-93. -/
def IDoc.undoOne (d : IDoc) : Outcome Unit × IDoc :=
  match d.undo with
  | [] => (.err, d)
  | op :: l => match undoText op d.text with
    | (.ok _, s) => (.ok (), { d with text := s, undo := l, redo := op :: d.redo })
    | (o, s) => (o, { d with text := s, undo := l })

/-- `redo`, undo_redo.rs lines 99-164; recording the operation anew clears the redo list. -/
def IDoc.redoOne (d : IDoc) : Outcome Unit × IDoc :=
  match d.redo with
  | [] => (.err, d)
  | op :: l => match redoText op d.text with
    | (.ok _, s) => (.ok (), { d with text := s, undo := op :: d.undo, redo := [] })
    | (o, s) => (o, { d with text := s, redo := l })

end Verif.IncEdit
