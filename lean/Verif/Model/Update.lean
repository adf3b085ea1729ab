import Verif.Model.Parser
import Verif.Model.Sort
/-!
# Changing a parsed script — `crates/ass-core/parser/script/{auto,update,batch,mutate,tracking,delta}.rs`

A call with `&mut self` gives the state after it with its result.  Of errors only the kind is kept.
-/
namespace Verif.Update
open Verif
open Verif.Ast
open Verif.Parser

/-- `ParseError`, as far as it arises here. -/
inductive Err where
  | sectionNotFound | indexOutOfBounds | invalidField | tooFewFields
deriving DecidableEq, Repr

/-- `LineContent`, types.rs lines 13-20. -/
inductive Content where
  | style (s : Style × Span)
  | event (e : Event × Span)
  | field (key value : Str)
deriving DecidableEq, Repr

/-- `SectionType`, ast/section/section_type.rs. -/
inductive Kind where
  | info | styles | events | fonts | graphics
deriving DecidableEq, Repr

/-- `Section::section_type`, ast/section/section_enum.rs lines 132-140. -/
def kind : Section → Kind
  | .info _ _ => .info
  | .styles _ => .styles
  | .events _ => .events
  | .fonts _ => .fonts
  | .graphics _ => .graphics

/-- `Change`, types.rs lines 58-102, without `Removed`, which is never recorded. -/
inductive Change where
  | added (offset : Nat) (content : Content) (line : Nat)
  | modified (offset : Nat) (old new : Content) (line : Nat)
  | sectionAdded (s : Section) (index : Nat)
  | sectionRemoved (k : Kind) (index : Nat)
deriving DecidableEq, Repr

/-- `Script`, container.rs lines 21-50, with its `ChangeTracker`, types.rs lines 106-111. -/
structure Scr where
  script : Script
  changes : List Change
  enabled : Bool
deriving DecidableEq, Repr

/-- `ChangeTracker::record`, types.rs lines 131-135. -/
def Scr.record (s : Scr) (c : Change) : Scr := if s.enabled then { s with changes := s.changes ++ [c] } else s

/-- Record if there is something to record, update.rs lines 101-111 with 87-91. -/
def Scr.recordOpt (s : Scr) : Option Change → Scr
  | some c => s.record c
  | none => s

/-- The sections replaced. -/
def Scr.withSections (s : Scr) (l : List Section) : Scr := { s with script := { s.script with sections := l } }

/-- The span from the first to the last of some spans, section_enum.rs lines 77-84. -/
def merged (l : List Span) : Option Span :=
  match l.head?, l.getLast? with
  | some a, some b => some ⟨a.start, b.stop, a.line, a.col⟩
  | _, _ => none

/-- `Section::span`, section_enum.rs lines 73-117. -/
def span : Section → Option Span
  | .info _ s => some s
  | .styles l => merged (l.map (·.2))
  | .events l => merged (l.map (·.2))
  | .fonts l => merged (l.map (·.span))
  | .graphics l => merged (l.map (·.span))

/-- `span.start <= offset && offset < span.end`. -/
def holds (o : Nat) (s : Span) : Bool := decide (s.start ≤ o) && decide (o < s.stop)

/-- The section covers an offset, e.g. update.rs lines 44-47. -/
def covers (o : Nat) (s : Section) : Bool := (span s).any (holds o)

/-- The prefixes of event lines, auto.rs lines 46-51. -/
def isEventLine (t : Str) : Bool :=
  startsWith "Dialogue:".toList t || startsWith "Comment:".toList t || startsWith "Picture:".toList t ||
    startsWith "Sound:".toList t || startsWith "Movie:".toList t || startsWith "Command:".toList t

/-- The span of a line parsed by itself, static_parser.rs line 109, parse_line.rs line 99. -/
def newSpan (n : Nat) : Span := ⟨0, 0, n, 1⟩

/-- A style line with the formats of the script, parse.rs lines 88-122. -/
def styleIn (s : Script) (data : Str) (n : Nat) : Except Err Content :=
  match parseStyle data (s.stylesFmt.getD styleFormat) with
  | some st => .ok (.style (st, newSpan n))
  | none => .error .tooFewFields

/-- An event line with the formats of the script, parse.rs lines 142-155. -/
def eventIn (s : Script) (line : Str) (n : Nat) : Except Err Content :=
  match parseEvent line (s.eventsFmt.getD eventFormat) with
  | some e => .ok (.event (e, newSpan n))
  | none => .error .tooFewFields

/-- A field, auto.rs lines 57-61. -/
def fieldIn (t : Str) : Except Err Content :=
  match splitOnce ':' t with
  | some (k, v) => .ok (.field (trim k) (trim v))
  | none => .error .invalidField

/-- `parse_line_auto`, auto.rs lines 33-67. -/
def parseAuto (s : Script) (line : Str) (n : Nat) : Except Err Content :=
  match stripPrefix "Style:".toList (trim line) with
  | some d => styleIn s (trim d) n
  | none =>
    if isEventLine (trim line) then eventIn s (trim line) n
    else if startsWith "Format:".toList (trim line) then .error .invalidField
    else fieldIn (trim line)

/-- Replace the first element that satisfies `p`; gives that element. -/
def replaceFirst {α : Type} (p : α → Bool) (x : α) : List α → Option (α × List α)
  | [] => none
  | a :: l => if p a then some (a, x :: l) else (replaceFirst p x l).map (fun r => (r.1, a :: r.2))

/-- The line put into a section, update.rs lines 54-98: the old content, the section, and what is recorded. -/
def putLine (o n : Nat) (sec : Section) (new : Content) : Except Err (Content × Section × Option Change) :=
  match sec, new with
  | .styles l, .style st => match replaceFirst (fun s => holds o s.2) st l with
    | some (old, l') => .ok (.style old, .styles l', some (.modified o (.style old) new n))
    | none => .error .indexOutOfBounds
  | .events l, .event e => match replaceFirst (fun s => holds o s.2) e l with
    | some (old, l') => .ok (.event old, .events l', some (.modified o (.event old) new n))
    | none => .error .indexOutOfBounds
  | .info fs sp, .field k v => match replaceFirst (fun f => f.1 = k) (k, v) fs with
    | some (old, fs') => .ok (.field k old.2, .info fs' sp, if old.2 = [] then none else some (.modified o (.field k old.2) new n))
    | none => .ok (.field k [], .info (fs ++ [(k, v)]) sp, some (.added o (.field k v) n))
  | _, _ => .error .invalidField

/-- The section that covers the offset, with what is before and after it, update.rs lines 41-48. -/
def findSection (o : Nat) : List Section → Option (List Section × Section × List Section)
  | [] => none
  | s :: l => if covers o s then some ([], s, l) else (findSection o l).map (fun r => (s :: r.1, r.2.1, r.2.2))

/-- `update_line_at_offset`, update.rs lines 34-114. -/
def updateLine (s : Scr) (o : Nat) (line : Str) (n : Nat) : Scr × Except Err Content :=
  match findSection o s.script.sections with
  | none => (s, .error .sectionNotFound)
  | some (pre, sec, post) => match parseAuto s.script line n with
    | .error e => (s, .error e)
    | .ok new => match putLine o n sec new with
      | .error e => (s, .error e)
      | .ok (old, sec', c) =>
        ((s.withSections (pre ++ sec' :: post)).recordOpt c, .ok old)

/-- `UpdateOperation`, types.rs lines 24-31. -/
structure Op where
  offset : Nat
  line : Str
  number : Nat
deriving DecidableEq, Repr

/-- The loop of `batch_update_lines`, batch.rs lines 41-50. -/
def batchLoop : List Op → Scr → List (Nat × Content) → List (Nat × Err) → Scr × List (Nat × Content) × List (Nat × Err)
  | [], s, up, fl => (s, up, fl)
  | op :: l, s, up, fl =>
    match updateLine s op.offset op.line op.number with
    | (s', .ok old) => batchLoop l s' (up ++ [(op.offset, old)]) fl
    | (s', .error e) => batchLoop l s' up (fl ++ [(op.offset, e)])

/-- `batch_update_lines`, batch.rs lines 28-53: the state, what was updated and what failed. -/
def batchUpdate (s : Scr) (ops : List Op) : Scr × List (Nat × Content) × List (Nat × Err) :=
  batchLoop (sortKey (·.offset) ops) s [] []

/-- Put `new` at the end of the first section that `get` accepts, or make a section of it; gives the positions,
batch.rs lines 66-89, 102-125. -/
def extend {α : Type} (get : Section → Option (List α)) (mk : List α → Section) (new : List α) :
    List Section → List Section × List Nat
  | [] => ([mk new], List.range new.length)
  | s :: l => match get s with
    | some x => (mk (x ++ new) :: l, (List.range new.length).map (x.length + ·))
    | none => ((s :: (extend get mk new l).1), (extend get mk new l).2)

/-- The styles of a styles section. -/
def asStyles : Section → Option (List (Style × Span))
  | .styles l => some l
  | _ => none

/-- The events of an events section. -/
def asEvents : Section → Option (List (Event × Span))
  | .events l => some l
  | _ => none

/-- `batch_add_styles`, batch.rs lines 66-89. -/
def addStyles (s : Scr) (l : List (Style × Span)) : Scr × List Nat :=
  let r := extend asStyles .styles l s.script.sections
  (s.withSections r.1, r.2)

/-- `batch_add_events`, batch.rs lines 102-125. -/
def addEvents (s : Scr) (l : List (Event × Span)) : Scr × List Nat :=
  let r := extend asEvents .events l s.script.sections
  (s.withSections r.1, r.2)

/-- `add_style`, mutate.rs lines 75-94: the position. -/
def addStyle (s : Scr) (st : Style × Span) : Scr × Nat :=
  let r := addStyles s [st]
  (r.1, r.2.headD 0)

/-- `add_event`, mutate.rs lines 107-126. -/
def addEvent (s : Scr) (e : Event × Span) : Scr × Nat :=
  let r := addEvents s [e]
  (r.1, r.2.headD 0)

/-- The checks of `atomic_batch_update`, batch.rs lines 152-164. -/
def validate (s : Scr) : List Op → Except Err Unit
  | [] => .ok ()
  | op :: l =>
    if s.script.sections.any (covers op.offset) then
      match parseAuto s.script op.line op.number with
      | .error e => .error e
      | .ok _ => validate s l
    else .error .sectionNotFound

/-- The updates on the copy, batch.rs lines 171-173: the copy when it stopped. -/
def applyAll : List Op → Scr → Scr × Except Err Unit
  | [], s => (s, .ok ())
  | op :: l, s => match updateLine s op.offset op.line op.number with
    | (s', .ok _) => applyAll l s'
    | (s', .error e) => (s', .error e)

/-- The additions, batch.rs lines 176-183. -/
def additions (s : Scr) (styles : Option (List (Style × Span))) (events : Option (List (Event × Span))) : Scr :=
  let s := match styles with | some l => (addStyles s l).1 | none => s
  match events with | some l => (addEvents s l).1 | none => s

/-- `atomic_batch_update`, batch.rs lines 145-188. -/
def atomic (s : Scr) (ops : List Op) (styles : Option (List (Style × Span))) (events : Option (List (Event × Span))) :
    Scr × Except Err Unit :=
  match validate s ops with
  | .error e => (s, .error e)
  | .ok _ => match applyAll ops s with
    | (_, .error e) => (s, .error e)
    | (t, .ok _) => (additions t styles events, .ok ())

/-- `add_section`, mutate.rs lines 25-33. -/
def addSection (s : Scr) (sec : Section) : Scr × Nat :=
  let n := s.script.sections.length
  ((s.record (.sectionAdded sec n)).withSections (s.script.sections ++ [sec]), n)

/-- `remove_section`, mutate.rs lines 48-62. -/
def removeSection (s : Scr) (i : Nat) : Scr × Except Err Section :=
  match s.script.sections[i]? with
  | some sec => ((s.withSections (s.script.sections.eraseIdx i)).record (.sectionRemoved (kind sec) i), .ok sec)
  | none => (s, .error .indexOutOfBounds)

/-- The loop of `diff`, tracking.rs lines 75-111, from index `i` on. -/
def diffFrom : Nat → List Section → List Section → List Change
  | _, [], [] => []
  | i, a :: l, [] => .sectionAdded a i :: diffFrom (i + 1) l []
  | i, [], b :: m => .sectionRemoved (kind b) i :: diffFrom (i + 1) [] m
  | i, a :: l, b :: m =>
    if a = b then diffFrom (i + 1) l m
    else .sectionRemoved (kind b) i :: .sectionAdded a i :: diffFrom (i + 1) l m

/-- `diff`, tracking.rs lines 69-114. -/
def diff (self other : Scr) : List Change := diffFrom 0 self.script.sections other.script.sections

/-- `sections_equal_ignoring_spans`, delta_eq.rs lines 13-75. -/
def sameContent : Section → Section → Bool
  | .info a _, .info b _ => a == b
  | .styles a, .styles b => a.map (·.1) == b.map (·.1)
  | .events a, .events b => a.map (·.1) == b.map (·.1)
  | .fonts a, .fonts b => a.map (fun m => (m.filename, m.data)) == b.map (fun m => (m.filename, m.data))
  | .graphics a, .graphics b => a.map (fun m => (m.filename, m.data)) == b.map (fun m => (m.filename, m.data))
  | _, _ => false

/-- `ScriptDelta`, delta.rs lines 17-29. -/
structure Delta where
  added : List Section
  modified : List (Nat × Section)
  removed : List Nat
  issues : List Issue
deriving DecidableEq, Repr

/-- Modifications and removals, delta.rs lines 56-73, from index `i` on. -/
def deltaOld (new : List Section) : Nat → List Section → List (Nat × Section) × List Nat
  | _, [] => ([], [])
  | i, s :: l =>
    let r := deltaOld new (i + 1) l
    match new.find? (fun t => kind t = kind s) with
    | some t => if sameContent s t then r else ((i, t) :: r.1, r.2)
    | none => (r.1, i :: r.2)

/-- `calculate_delta`, delta.rs lines 46-96. -/
def delta (old new : Script) : Delta :=
  let r := deltaOld new.sections 0 old.sections
  ⟨new.sections.filter (fun t => !old.sections.any (fun s => kind s = kind t)), r.1, r.2, new.issues⟩

/-- `ScriptDelta::is_empty`, delta.rs lines 117-122. -/
def Delta.isEmpty (d : Delta) : Bool := d.added.isEmpty && d.modified.isEmpty && d.removed.isEmpty && d.issues.isEmpty

end Verif.Update
