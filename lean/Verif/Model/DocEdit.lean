import Verif.Model.Builders
import Verif.Model.InfoCmd
/-!
# Editing events and properties through the document

`crates/ass-editor/core/document/{ass_api,event_edit,event_line,builder_edit}.rs`.  The functions parse the whole text with
`parse_script_with` (validation.rs lines 19-28) and look for the line to change with `str::find`.  The texts of errors are left out; a
function given by the caller is an arbitrary total function.
-/
namespace Verif.DocEdit
open Verif
open Verif.Doc
open Verif.Pos
open Verif.Ast (Event Kind)
open Verif.Parser (Script Section)
open Verif.Builders (EventB)
open Verif.InfoCmd (toEol)

/-- The events of a section, e.g. ass_api.rs lines 27-29. -/
def sectionEvents : Section → List Event
  | .events l => l.map Prod.fst
  | _ => []

/-- The events of all sections, in order; event_edit.rs lines 59-106. -/
def events (sc : Script) : List Event := sc.sections.flatMap sectionEvents

/-- The styles of a section, ass_api.rs lines 40-42. -/
def sectionStyles : Section → Nat
  | .styles l => l.length
  | _ => 0

/-- The properties of a section, ass_api.rs lines 53-57. -/
def sectionFields : Section → List (Str × Str)
  | .info f _ => f
  | _ => []

/-- `parse_script_with`, validation.rs lines 19-28. -/
def withScript {α : Type} (d : Doc) (f : Script → α) : Outcome α :=
  match Parser.parse d.text with
  | none => .err
  | some sc => .ok (f sc)

/-- `events_count`, ass_api.rs lines 23-33. -/
def eventsCount (d : Doc) : Outcome Nat := withScript d (fun sc => (sc.sections.map (fun s => (sectionEvents s).length)).sum)

/-- `styles_count`, ass_api.rs lines 36-46. -/
def stylesCount (d : Doc) : Outcome Nat := withScript d (fun sc => (sc.sections.map sectionStyles).sum)

/-- `script_info_fields`, ass_api.rs lines 49-61. -/
def infoFields (d : Doc) : Outcome (List Str) := withScript d (fun sc => sc.sections.flatMap (fun s => (sectionFields s).map Prod.fst))

/-- `sections_count`, ass_api.rs lines 64-66. -/
def sectionsCount (d : Doc) : Outcome Nat := withScript d (fun sc => sc.sections.length)

/-- Whether the section is one of events, ass_api.rs line 74. -/
def isEvents : Section → Bool
  | .events _ => true
  | _ => false

/-- Whether the section is one of styles, ass_api.rs line 84. -/
def isStyles : Section → Bool
  | .styles _ => true
  | _ => false

/-- `has_events`, ass_api.rs lines 69-76. -/
def hasEvents (d : Doc) : Outcome Bool := withScript d (fun sc => sc.sections.any isEvents)

/-- `has_styles`, ass_api.rs lines 79-86. -/
def hasStyles (d : Doc) : Outcome Bool := withScript d (fun sc => sc.sections.any isStyles)

/-- `find_event_text`, ass_api.rs lines 89-103. -/
def findEventText (pat : Str) (d : Doc) : Outcome (List Str) :=
  withScript d (fun sc => ((events sc).filter (fun e => containsStr pat e.text)).map (·.text))

/-- `edit_event_text`, ass_api.rs lines 106-115. -/
def editEventText (old new : Str) (d : Doc) : Outcome Unit × Doc :=
  match splitOnceStr old d.text with
  | none => (.ok (), d)
  | some (a, _) => d.replace ⟨byteLen a, byteLen a + byteLen old⟩ new

/-- The value of a key in a section, ass_api.rs lines 121-128. -/
def sectionValue (key : Str) : Section → Option Str
  | .info f _ => (f.find? (fun p => p.1 == key)).map Prod.snd
  | _ => none

/-- `get_script_info_field`, ass_api.rs lines 118-131. -/
def getField (key : Str) (d : Doc) : Outcome (Option Str) := withScript d (fun sc => sc.sections.findSome? (sectionValue key))

/-- Where a line to change begins and ends: from the first occurrence of the pattern to the line feed after it or to the end of the
text; ass_api.rs lines 139-144, event_edit.rs lines 73-79, builder_edit.rs lines 137-142. -/
def lineAt (pat s : Str) : Option (Nat × Nat) :=
  match splitOnceStr pat s with
  | none => none
  | some (a, b) => some (byteLen a, byteLen a + byteLen (toEol (pat ++ b)))

/-- `set_script_info_field`, ass_api.rs lines 134-151. -/
def setField (key value : Str) (d : Doc) : Outcome Unit × Doc :=
  match lineAt (key ++ [':']) d.text with
  | none => (.ok (), d)
  | some (a, b) => d.replace ⟨a, b⟩ (key ++ ": ".toList ++ value)

/-- The pattern of an event, event_edit.rs lines 67-71, builder_edit.rs lines 131-135. -/
def pattern (e : Event) : Str := e.kind.str ++ ": ".toList ++ e.layer ++ [','] ++ e.start ++ [','] ++ e.stop

/-- One modification, event_line.rs lines 60-76. -/
def change (e : Event) (m : Str × Str) : Option Event :=
  if m.1 = "layer".toList then some { e with layer := m.2 }
  else if m.1 = "start".toList then some { e with start := m.2 }
  else if m.1 = "end".toList then some { e with stop := m.2 }
  else if m.1 = "style".toList then some { e with style := m.2 }
  else if m.1 = "name".toList then some { e with name := m.2 }
  else if m.1 = "margin_l".toList then some { e with marginL := m.2 }
  else if m.1 = "margin_r".toList then some { e with marginR := m.2 }
  else if m.1 = "margin_v".toList then some { e with marginV := m.2 }
  else if m.1 = "effect".toList then some { e with effect := m.2 }
  else if m.1 = "text".toList then some { e with text := m.2 }
  else none

/-- The modifications in order, event_line.rs lines 59-77. -/
def changes : Event → List (Str × Str) → Option Event
  | e, [] => some e
  | e, m :: ms => match change e m with
    | none => none
    | some e' => changes e' ms

/-- The rebuilt line, event_line.rs lines 80-81. -/
def rebuilt (e : Event) : Str :=
  e.kind.str ++ ": ".toList ++ joinStr [','] [e.layer, e.start, e.stop, e.style, e.name, e.marginL, e.marginR, e.marginV, e.effect,
    e.text]

/-- The replacement of the line and the answer, event_edit.rs lines 120-123, builder_edit.rs lines 161-164. -/
def put (d : Doc) (a b : Nat) (new : Str) : Outcome Str × Doc :=
  match d.replace ⟨a, b⟩ new with
  | (.ok _, d') => (.ok new, d')
  | (.err, d') => (.err, d')
  | (.panic, d') => (.panic, d')

/-- What is done once the event is found, event_edit.rs lines 64-123. -/
def editEvent (e : Event) (mods : List (Str × Str)) (d : Doc) : Outcome Str × Doc :=
  match lineAt (pattern e) d.text with
  | none => (.err, d)
  | some (a, b) => match changes e mods with
    | none => (.err, d)
    | some e' => put d a b (rebuilt e')

/-- `edit_event_by_index`, event_edit.rs lines 49-131. -/
def editByIndex (i : Nat) (update : Event → List (Str × Str)) (d : Doc) : Outcome Str × Doc :=
  match Parser.parse d.text with
  | none => (.err, d)
  | some sc => match (events sc)[i]? with
    | none => (.err, d)
    | some e => editEvent e (update e) d

/-- The format line of the first `[Events]` in the text, builder_edit.rs lines 71-83. -/
def formatLine (s : Str) : Option (List Str) :=
  match splitOnceStr "[Events]".toList s with
  | none => none
  | some (_, b) => match splitOnceStr "Format:".toList b with
    | none => none
    | some (_, r) => match splitOnce '\n' r with
      | none => none
      | some (l, _) => some ((splitOn ',' (trim l)).map trim)

/-- The kind of the builder, builder_edit.rs lines 89-97; `EventBuilder::new()` sets none. -/
def builderKind : Kind → Option Kind
  | .dialogue => some .dialogue
  | .comment => some .comment
  | _ => none

/-- The builder filled from the event, builder_edit.rs lines 89-118. -/
def builderOf (e : Event) : EventB :=
  { kind := builderKind e.kind
    start := some e.start
    stop := some e.stop
    style := some e.style
    name := some e.name
    text := some e.text
    layer := some ((parseU32 e.layer).getD 0)
    marginL := some ((parseU32 e.marginL).getD 0)
    marginR := some ((parseU32 e.marginR).getD 0)
    marginV := some ((parseU32 e.marginV).getD 0)
    marginT := e.marginT.map (fun m => (parseU32 m).getD 0)
    marginB := e.marginB.map (fun m => (parseU32 m).getD 0)
    effect := some e.effect }

/-- The line built, builder_edit.rs lines 124-128. -/
def builtLine (s : Str) (b : EventB) : Option Str :=
  match formatLine s with
  | some f => b.buildFormat f
  | none => some b.build

/-- `edit_event_with_builder`, builder_edit.rs lines 51-172. -/
def editWithBuilder (i : Nat) (fn : EventB → EventB) (d : Doc) : Outcome Str × Doc :=
  match Parser.parse d.text with
  | none => (.err, d)
  | some sc => match (events sc)[i]? with
    | none => (.err, d)
    | some e => match builtLine d.text (fn (builderOf e)) with
      | none => (.err, d)
      | some new => match lineAt (pattern e) d.text with
        | none => (.err, d)
        | some (a, b) => put d a b new

end Verif.DocEdit
