import Verif.Model.IncEdit
import Verif.Model.Events
import Verif.Spec.Doc
/-!
# The events a document sends — `crates/ass-editor/events/{event,event_query}.rs`, `core/document/{editing,incremental_edit,incremental_fast,
undo_redo,validation}.rs`

The document has an event channel (`emit`, constructors.rs lines 92-96, sends nothing otherwise).  Times (`*_ms`, `*_us`) are numbers.
Left out: the descriptions of events (event_query.rs lines 17-90).
-/
namespace Verif.Follow
open Verif Verif.Pos Verif.Doc Verif.IncEdit

/-- `DocumentEvent`, event.rs lines 19-157. -/
inductive Event where
  | inserted (pos : Nat) (text : Str) (length : Nat)
  | deleted (range : Range) (text : Str)
  | replaced (range : Range) (old new : Str)
  | selection (old new : Option Range)
  | cursor (old new : Nat)
  | saved (path : Str) (as_ : Bool)
  | loaded (path : Str) (size : Nat)
  | undone (what : Str) (changes : Nat)
  | redone (what : Str) (changes : Nat)
  | validated (issues errors warnings ms : Nat)
  | searched (pattern : Str) (found : Nat) (limit : Bool) (us : Nat)
  | parsed (ok : Bool) (sections ms : Nat) (error : Option Str)
  | extension (name : Str) (loaded : Bool)
  | config (key : Str) (old : Option Str) (new : Str)
  | custom (type : Str) (data : List (Str × Str))
deriving DecidableEq, Repr

/-- `event_type_name`, event_query.rs lines 131-149. -/
def Event.typeName : Event → Str
  | .inserted .. => "TextInserted".toList
  | .deleted .. => "TextDeleted".toList
  | .replaced .. => "TextReplaced".toList
  | .selection .. => "SelectionChanged".toList
  | .cursor .. => "CursorMoved".toList
  | .saved .. => "DocumentSaved".toList
  | .loaded .. => "DocumentLoaded".toList
  | .undone .. => "UndoPerformed".toList
  | .redone .. => "RedoPerformed".toList
  | .validated .. => "ValidationCompleted".toList
  | .searched .. => "SearchCompleted".toList
  | .parsed .. => "ParsingCompleted".toList
  | .extension .. => "ExtensionChanged".toList
  | .config .. => "ConfigChanged".toList
  | .custom t _ => t

/-- `is_modification`, event_query.rs lines 93-102. -/
def Event.isModification : Event → Bool
  | .inserted .. | .deleted .. | .replaced .. | .undone .. | .redone .. => true
  | _ => false

/-- `affects_text`, event_query.rs lines 105-115. -/
def Event.affectsText : Event → Bool
  | .inserted .. | .deleted .. | .replaced .. | .undone .. | .redone .. | .loaded .. => true
  | _ => false

/-- `affected_range`, event_query.rs lines 118-126. -/
def Event.affectedRange : Event → Option Range
  | .inserted p _ n => some (Range.new p (p + n))
  | .deleted r _ => some r
  | .replaced r _ _ => some r
  | _ => none

/-- filter.rs lines 82-85. -/
def Event.isCursor : Event → Bool
  | .cursor .. | .selection .. => true
  | _ => false

/-- What filters see of an event. -/
def Event.seen (e : Event) : Events.Ev := ⟨e.typeName, e.isModification, e.isCursor, 0⟩

/-- What `insert`, `delete` and `replace` send, editing.rs lines 60-66, 93-98, 126-132: nothing if they return an error before. -/
def toldEdit (d : Doc.Doc) : Spec.Edit → List Event
  | .insert pos t => match d.insert pos t with
    | (.ok _, _) => [.inserted pos t (byteLen t)]
    | _ => []
  | .delete r => match textRange d.text r, d.delete r with
    | .ok old, (.ok _, _) => [.deleted r old]
    | _, _ => []
  | .replace r t => match textRange d.text r, d.replace r t with
    | .ok old, (.ok _, _) => [.replaced r old t]
    | _, _ => []

/-- What the calls of a client send: `undo` and `redo` (undo_redo.rs lines 21-164), `execute_command` (validation.rs lines 45-119), and what
clears or sets up the history send nothing. -/
def told (d : Doc.Doc) : Spec.Call → List Event
  | .edit e => toldEdit d e
  | _ => []

/-- What is sent in the course of some calls. -/
def toldAll (d : Doc.Doc) : List Spec.Call → List Event
  | [] => []
  | c :: cs => told d c ++ toldAll (c.run d) cs

/-- What `edit_incremental` sends: the short way nothing, unless it hands over to `replace` (incremental_fast.rs lines 28-33, 75-90); the long
way the old text and the new one (incremental_edit.rs lines 41-45, 112-118). -/
def toldInc (dbg : Parser.Section → Str) (d : IDoc) (r : Range) (new : Str) : List Event :=
  if simple r new then
    if !boundary d.text r.start || !boundary d.text r.fin then
      match textRange d.text r, d.replace r new with
      | .ok old, (.ok _, _) => [.replaced r old new]
      | _, _ => []
    else []
  else
    match textRange d.text r, longPath dbg d r new with
    | .ok old, (.ok _, _) => [.replaced r old new]
    | _, _ => []

end Verif.Follow
