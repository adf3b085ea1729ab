import Verif.Model.Doc
import Verif.Model.StrX
import Verif.Model.Time
import Verif.Model.Karaoke
/-!
# Event commands

`crates/ass-editor/commands/event_commands/{helpers,toggle,timing,effect_exec,delete,batch_delete,
merge,split}.rs`.

The commands work on the document's text: they look for `[Events]` and `Format:` and then walk over
the following lines.  Command results (ranges, messages) are left out; the outcome is success, error
or panic, together with the document afterwards.
-/
namespace Verif.EventCmd
open Verif Verif.Doc Verif.Pos

/-- The fields of an event, as `parse_event_line` builds them (helpers.rs lines 83-98; the absent
margins and the dummy span are left out). -/
structure Ev where
  comment : Bool
  layer : Str
  start : Str
  fin : Str
  style : Str
  name : Str
  ml : Str
  mr : Str
  mv : Str
  effect : Str
  text : Str
  deriving DecidableEq, Repr

/-- Character index of the last comma outside parentheses, helpers.rs lines 58-72; the argument is the
reversed text (the `i32` depth is unbounded here). -/
def lastComma : Int → Str → Option Nat
  | _, [] => none
  | d, c :: r =>
    if c = ')' then lastComma (d + 1) r
    else if c = '(' then lastComma (d - 1) r
    else if c = ',' ∧ d = 0 then some r.length
    else lastComma d r

/-- helpers.rs lines 74-81: effect and text; the character index is used as a byte offset. -/
def effectText (remaining : Str) : Outcome (Str × Str) :=
  match lastComma 0 remaining.reverse with
  | some k =>
    match takeBytes remaining k, dropBytes remaining (k + 1) with
    | some a, some b => .ok (trim a, trim b)
    | _, _ => .panic
  | none => .ok (trim remaining, [])

/-- helpers.rs lines 22-26. -/
def eventKind (s : Str) : Option Bool :=
  if s = "Dialogue".toList then some false else if s = "Comment".toList then some true else none

/-- helpers.rs lines 28-98 (`fields_part[prefix_len..]` is the ninth piece, a comma and the tenth). -/
def parseFields (comment : Bool) (fields : Str) : Outcome Ev :=
  match splitn ',' 10 fields with
  | [a, b, c, d, e, f, g, h, i, j] =>
    match effectText (i ++ ',' :: j) with
    | .ok (effect, text) =>
      .ok ⟨comment, trim a, trim b, trim c, trim d, trim e, trim f, trim g, trim h, effect, text⟩
    | .err => .err
    | .panic => .panic
  | _ => .err

/-- `parse_event_line`, helpers.rs lines 14-99. -/
def parseEventLine (line : Str) : Outcome Ev :=
  match splitOnce ':' line with
  | none => .err
  | some (ty, rest) =>
    match eventKind ty with
    | none => .err
    | some k => parseFields k (trim rest)

/-- The `format!` of all these commands, e.g. timing.rs lines 128-146. -/
def build (e : Ev) : Str :=
  (if e.comment then "Comment".toList else "Dialogue".toList) ++ ": ".toList ++
  joinStr ",".toList [e.layer, e.start, e.fin, e.style, e.name, e.ml, e.mr, e.mv, e.effect, e.text]

/-- `line.starts_with("Dialogue:") || line.starts_with("Comment:")`. -/
def isEventLine (l : Str) : Bool := startsWith "Dialogue:".toList l || startsWith "Comment:".toList l

/-- The text up to and including the `Format:` line, and what follows it; e.g. toggle.rs lines 51-63. -/
def bodySplit (content : Str) : Option (Str × Str) :=
  match splitOnceStr "[Events]".toList content with
  | none => none
  | some (a, b) =>
    match splitOnceStr "Format:".toList ("[Events]".toList ++ b) with
    | none => none
    | some (c, d) =>
      match splitOnce '\n' ("Format:".toList ++ d) with
      | none => none
      | some (f, body) => some (a ++ c ++ f ++ ['\n'], body)

/-- The line ends the section, toggle.rs line 112, timing.rs line 171, effect_exec.rs line 116; with `again` as in apply.rs line 129, where
a second header of the events does not. -/
def closes (again : Bool) (line : Str) : Bool := startsWith "[".toList line && !(again && decide (line = "[Events]".toList))

/-- The loop shared by toggle.rs lines 70-117, timing.rs lines 93-176, effect_exec.rs lines 37-121 and apply.rs lines 75-135;
`edit index line` is the replacement for the line, if any (it may panic).  The first argument bounds the
number of iterations, `none` means that they did not suffice. -/
def editLoop (again : Bool) (edit : Nat → Str → Outcome (Option Str)) : Nat → Doc → Nat → Nat → Option (Outcome Unit × Doc)
  | 0, _, _, _ => none
  | n + 1, d, pos, idx =>
    if pos < byteLen d.text then
      match dropBytes d.text pos with
      | none => some (.panic, d)
      | some rest =>
        let line := rest.takeWhile (· ≠ '\n')
        let lineEnd := pos + byteLen line
        if line = [] then some (.ok (), d)
        else if isEventLine line then
          match edit idx line with
          | .panic => some (.panic, d)
          | .err => some (.err, d)
          | .ok none => editLoop again edit n d (lineEnd + 1) (idx + 1)
          | .ok (some new) =>
            match d.replace ⟨pos, lineEnd⟩ new with
            | (.ok _, d') => editLoop again edit n d' (lineEnd + 1) (idx + 1)
            | (o, d') => some (o, d')
        else if closes again line then some (.ok (), d)
        else editLoop again edit n d (lineEnd + 1) idx
    else some (.ok (), d)

/-- `execute` of the three commands. -/
def editEvents (edit : Nat → Str → Outcome (Option Str)) (n : Nat) (d : Doc) : Option (Outcome Unit × Doc) :=
  match bodySplit d.text with
  | none => some (.err, d)
  | some (pre, _) => editLoop false edit n d (byteLen pre) 0

/-- `event_indices.is_empty() || event_indices.contains(&current_index)`. -/
def selected (is : List Nat) (i : Nat) : Bool := is.isEmpty || is.contains i

/-- toggle.rs lines 87-91 (the first occurrence is the prefix). -/
def toggleLine (l : Str) : Str :=
  match stripPrefix "Dialogue:".toList l with
  | some t => "Comment:".toList ++ t
  | none =>
    match stripPrefix "Comment:".toList l with
    | some t => "Dialogue:".toList ++ t
    | none => l

/-- toggle.rs lines 83-91. -/
def toggleEdit (is : List Nat) (i : Nat) (l : Str) : Outcome (Option Str) :=
  if selected is i then .ok (some (toggleLine l)) else .ok none

/-- timing.rs lines 117-122: a time moved by an offset, not below zero (`i32` overflow panics). -/
def shift (t : Nat) (off : Int) : Outcome Nat :=
  let x := Karaoke.asI32 t + off
  if x < -(2 ^ 31) ∨ x ≥ 2 ^ 31 then .panic else .ok (max x 0).toNat

/-- timing.rs lines 117-146. -/
def retime (e : Ev) (s f : Nat) (so eo : Int) : Outcome (Option Str) :=
  match shift s so with
  | .ok s' =>
    match shift f eo with
    | .ok f' =>
      .ok (some (build { e with start := Time.formatAssTime s', fin := Time.formatAssTime (max f' (s' + 1)) }))
    | _ => .panic
  | _ => .panic

/-- timing.rs lines 113-115: both times are parsed before either result is looked at. -/
def timingEvent (e : Ev) (so eo : Int) : Outcome (Option Str) :=
  match Time.parseAssTime e.start, Time.parseAssTime e.fin with
  | .ok s, .ok f => retime e s f so eo
  | .overflow, _ => .panic
  | _, .overflow => .panic
  | _, _ => .ok none

/-- timing.rs lines 106-146. -/
def timingEdit (is : List Nat) (so eo : Int) (i : Nat) (l : Str) : Outcome (Option Str) :=
  if selected is i then
    match parseEventLine l with
    | .panic => .panic
    | .err => .ok none
    | .ok e => timingEvent e so eo
  else .ok none

/-- `EffectOperation`, effect.rs lines 16-21. -/
inductive EffectOp | set | append | prepend | clear
  deriving DecidableEq, Repr

/-- effect_exec.rs lines 56-73. -/
def newEffect (op : EffectOp) (effect old : Str) : Str :=
  match op with
  | .set => effect
  | .clear => []
  | .append => if old = [] then effect else old ++ ' ' :: effect
  | .prepend => if old = [] then effect else effect ++ ' ' :: old

/-- effect_exec.rs lines 50-94. -/
def effectEdit (is : List Nat) (op : EffectOp) (effect : Str) (i : Nat) (l : Str) : Outcome (Option Str) :=
  if selected is i then
    match parseEventLine l with
    | .panic => .panic
    | .err => .ok none
    | .ok e => .ok (some (build { e with effect := newEffect op effect e.effect }))
  else .ok none

/-- `ToggleEventTypeCommand::execute`, toggle.rs lines 49-128. -/
def toggle (is : List Nat) (n : Nat) (d : Doc) := editEvents (toggleEdit is) n d
/-- `TimingAdjustCommand::execute`, timing.rs lines 72-187. -/
def timing (is : List Nat) (so eo : Int) (n : Nat) (d : Doc) := editEvents (timingEdit is so eo) n d
/-- `EventEffectCommand::execute`, effect_exec.rs lines 16-139. -/
def effect (is : List Nat) (op : EffectOp) (e : Str) (n : Nat) (d : Doc) := editEvents (effectEdit is op e) n d

/-! ## Deleting -/

/-- Lines with their line feeds: the pieces the loop of delete.rs lines 49-73 walks over. -/
def rowsNl : Str → List Str
  | [] => []
  | c :: s =>
    if c = '\n' then ['\n'] :: rowsNl s
    else match rowsNl s with
      | [] => [[c]]
      | r :: rs => (c :: r) :: rs

/-- delete.rs line 59: the piece without its last byte (`panic`: that is not the last character). -/
def bare (r : Str) : Option Str :=
  match r.getLast? with
  | none => some []
  | some c => if c.utf8Size = 1 then some r.dropLast else none

/-- The loop of delete.rs lines 49-73: the range of the event with index `k`. -/
def findEvent (k : Nat) : List Str → Nat → Nat → Outcome (Option Range)
  | [], _, _ => .ok none
  | r :: rs, pos, idx =>
    match bare r with
    | none => .panic
    | some l =>
      if isEventLine l then
        if idx = k then .ok (some ⟨pos, pos + byteLen r⟩) else findEvent k rs (pos + byteLen r) (idx + 1)
      else findEvent k rs (pos + byteLen r) idx

/-- `DeleteEventCommand::execute`, delete.rs lines 27-87. -/
def deleteEvent (k : Nat) (d : Doc) : Outcome Unit × Doc :=
  match bodySplit d.text with
  | none => (.err, d)
  | some (pre, body) =>
    match findEvent k (rowsNl body) (byteLen pre) 0 with
    | .ok (some r) => d.delete r
    | .ok none => (.err, d)
    | .err => (.err, d)
    | .panic => (.panic, d)

/-- The loop of batch_delete.rs lines 61-79: index and range of every event. -/
def allEvents : List Str → Nat → Nat → Outcome (List (Nat × Range))
  | [], _, _ => .ok []
  | r :: rs, pos, idx =>
    match bare r with
    | none => .panic
    | some l =>
      if isEventLine l then
        match allEvents rs (pos + byteLen r) (idx + 1) with
        | .ok es => .ok ((idx, ⟨pos, pos + byteLen r⟩) :: es)
        | o => o
      else allEvents rs (pos + byteLen r) idx

/-- The loop of batch_delete.rs lines 85-96. -/
def deleteRanges : List Range → Doc → Outcome Unit × Doc
  | [], d => (.ok (), d)
  | r :: rs, d =>
    match d.delete r with
    | (.ok _, d') => deleteRanges rs d'
    | o => o

/-- `BatchDeleteEventsCommand::execute`, batch_delete.rs lines 28-106.  The indices, sorted in
descending order without duplicates and restricted to the existing ones, are the collected events in
reverse order restricted to the given indices. -/
def batchDelete (is : List Nat) (d : Doc) : Outcome Unit × Doc :=
  if is = [] then (.ok (), d)
  else
    match bodySplit d.text with
    | none => (.err, d)
    | some (pre, body) =>
      match allEvents (rowsNl body) (byteLen pre) 0 with
      | .ok es => deleteRanges ((es.reverse.filter (fun e => is.contains e.1)).map (·.2)) d
      | .err => (.err, d)
      | .panic => (.panic, d)

/-! ## Merging and splitting -/

/-- The loop of merge.rs lines 78-102 and split.rs lines 66-156 over the lines after the `Format:` line:
start and text of every event. -/
def eventsIn : List Str → Nat → List (Nat × Str)
  | [], _ => []
  | l :: ls, pos =>
    if l = [] then []
    else if isEventLine l then (pos, l) :: eventsIn ls (pos + byteLen l + 1)
    else if startsWith "[".toList l then []
    else eventsIn ls (pos + byteLen l + 1)

/-- merge.rs lines 110-150. -/
def mergeLines (sep : Str) (p1 : Nat) (l1 : Str) (p2 : Nat) (l2 : Str) (d : Doc) : Outcome Unit × Doc :=
  match parseEventLine l1 with
  | .err => (.err, d)
  | .panic => (.panic, d)
  | .ok e1 =>
    match parseEventLine l2 with
    | .err => (.err, d)
    | .panic => (.panic, d)
    | .ok e2 =>
      d.replace ⟨p1, p2 + byteLen l2 + 1⟩
        (build { e1 with fin := e2.fin, text := e1.text ++ sep ++ e2.text } ++ ['\n'])

/-- `MergeEventsCommand::execute`, merge.rs lines 50-161. -/
def mergeEvents (i j : Nat) (sep : Str) (d : Doc) : Outcome Unit × Doc :=
  if i ≥ j then (.err, d)
  else
    match bodySplit d.text with
    | none => (.err, d)
    | some (pre, body) =>
      match (eventsIn (splitOn '\n' body) (byteLen pre))[i]?,
            (eventsIn (splitOn '\n' body) (byteLen pre))[j]? with
      | some (p1, l1), some (p2, l2) => mergeLines sep p1 l1 p2 l2 d
      | _, _ => (.err, d)

/-- split.rs lines 92-137. -/
def splitTimed (at_ : Str) (t : Nat) (p : Nat) (l : Str) (e : Ev) (s f : Nat) (d : Doc) : Outcome Unit × Doc :=
  if t ≤ s ∨ t ≥ f then (.err, d)
  else d.replace ⟨p, p + byteLen l⟩ (build { e with fin := at_ } ++ '\n' :: build { e with start := at_ })

/-- split.rs lines 82-137. -/
def splitLine (at_ : Str) (t : Nat) (p : Nat) (l : Str) (d : Doc) : Outcome Unit × Doc :=
  match parseEventLine l with
  | .err => (.err, d)
  | .panic => (.panic, d)
  | .ok e =>
    match Time.parseAssTime e.start with
    | .err => (.err, d)
    | .overflow => (.panic, d)
    | .ok s =>
      match Time.parseAssTime e.fin with
      | .err => (.err, d)
      | .overflow => (.panic, d)
      | .ok f => splitTimed at_ t p l e s f d

/-- `SplitEventCommand::execute`, split.rs lines 39-162. -/
def splitEvent (k : Nat) (at_ : Str) (d : Doc) : Outcome Unit × Doc :=
  match Time.parseAssTime at_ with
  | .err => (.err, d)
  | .overflow => (.panic, d)
  | .ok t =>
    match bodySplit d.text with
    | none => (.err, d)
    | some (pre, body) =>
      match (eventsIn (splitOn '\n' body) (byteLen pre))[k]? with
      | some (p, l) => splitLine at_ t p l d
      | none => (.err, d)

end Verif.EventCmd
