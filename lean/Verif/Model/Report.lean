import Verif.Model.EventCmd
import Verif.Model.StyleCmd
import Verif.Model.Media
/-!
# What commands report — `CommandResult` (command_result.rs lines 20-66) of the event, style and media commands

`success_with_change(range, cursor)` is `some (range, cursor)`, `success()` is `none`; messages are left out.
-/
namespace Verif.Report
open Verif Verif.Doc Verif.Pos

/-- Changed range and cursor, if the command says that it changed the text. -/
abbrev Report := Option (Range × Nat)

/-- `total_range` with one more change; e.g. toggle.rs lines 99-107. -/
def grow (total : Option Range) (r : Range) : Option Range :=
  match total with
  | some t => some (t.union r)
  | none => some r

/-- The end of the three event commands and of `ApplyStyleCommand`: toggle.rs lines 119-127, timing.rs lines 178-186,
effect_exec.rs lines 123-138, apply.rs lines 137-149.  The cursor is put at the end of the text. -/
def atEnd (total : Option Range) (d : Doc) : Report := total.map (fun r => (r, byteLen d.text))

/-- `EventCmd.editLoop` with the ranges collected on the way: toggle.rs lines 65-127, timing.rs lines 88-186,
effect_exec.rs lines 32-138, apply.rs lines 73-149. -/
def editLoop (again : Bool) (edit : Nat → Str → Outcome (Option Str)) :
    Nat → Doc → Nat → Nat → Option Range → Option (Outcome Report × Doc)
  | 0, _, _, _, _ => none
  | n + 1, d, pos, idx, total =>
    if pos < byteLen d.text then
      match dropBytes d.text pos with
      | none => some (.panic, d)
      | some rest =>
        let line := rest.takeWhile (· ≠ '\n')
        let lineEnd := pos + byteLen line
        if line = [] then some (.ok (atEnd total d), d)
        else if EventCmd.isEventLine line then
          match edit idx line with
          | .panic => some (.panic, d)
          | .err => some (.err, d)
          | .ok none => editLoop again edit n d (lineEnd + 1) (idx + 1) total
          | .ok (some new) =>
            match d.replace ⟨pos, lineEnd⟩ new with
            | (.ok _, d') => editLoop again edit n d' (lineEnd + 1) (idx + 1) (grow total ⟨pos, pos + byteLen new⟩)
            | (.err, d') => some (.err, d')
            | (.panic, d') => some (.panic, d')
        else if EventCmd.closes again line then some (.ok (atEnd total d), d)
        else editLoop again edit n d (lineEnd + 1) idx total
    else some (.ok (atEnd total d), d)

/-- `execute` of the three event commands. -/
def editEvents (edit : Nat → Str → Outcome (Option Str)) (n : Nat) (d : Doc) : Option (Outcome Report × Doc) :=
  match EventCmd.bodySplit d.text with
  | none => some (.err, d)
  | some (pre, _) => editLoop false edit n d (byteLen pre) 0 none

/-- `ToggleEventTypeCommand::execute`, toggle.rs lines 49-128. -/
def toggle (is : List Nat) (n : Nat) (d : Doc) := editEvents (EventCmd.toggleEdit is) n d
/-- `TimingAdjustCommand::execute`, timing.rs lines 72-187. -/
def timing (is : List Nat) (so eo : Int) (n : Nat) (d : Doc) := editEvents (EventCmd.timingEdit is so eo) n d
/-- `EventEffectCommand::execute`, effect_exec.rs lines 16-139. -/
def effect (is : List Nat) (op : EventCmd.EffectOp) (e : Str) (n : Nat) (d : Doc) := editEvents (EventCmd.effectEdit is op e) n d

/-- `ApplyStyleCommand::execute`, apply.rs lines 48-150 (as `StyleCmd.apply`). -/
def apply (old new : Str) (filter : Option Str) (n : Nat) (d : Doc) : Option (Outcome Report × Doc) :=
  match StyleCmd.eventsStart d.text with
  | none => some (.err, d)
  | some pre => editLoop true (fun _ l => .ok (StyleCmd.applyEdit old new filter l)) n d (byteLen pre) 0 none

/-- A single replacement, reported as such: split.rs lines 134-147 and merge.rs lines 144-160. -/
def replaced (d : Doc) (r : Range) (t : Str) : Outcome Report × Doc :=
  match d.replace r t with
  | (.ok _, d') => (.ok (some (⟨r.start, r.start + byteLen t⟩, r.start + byteLen t)), d')
  | (.err, d') => (.err, d')
  | (.panic, d') => (.panic, d')

/-- merge.rs lines 110-160. -/
def mergeLines (sep : Str) (p1 : Nat) (l1 : Str) (p2 : Nat) (l2 : Str) (d : Doc) : Outcome Report × Doc :=
  match EventCmd.parseEventLine l1 with
  | .err => (.err, d)
  | .panic => (.panic, d)
  | .ok e1 =>
    match EventCmd.parseEventLine l2 with
    | .err => (.err, d)
    | .panic => (.panic, d)
    | .ok e2 =>
      replaced d ⟨p1, p2 + byteLen l2 + 1⟩
        (EventCmd.build { e1 with fin := e2.fin, text := e1.text ++ sep ++ e2.text } ++ ['\n'])

/-- `MergeEventsCommand::execute`, merge.rs lines 50-161. -/
def mergeEvents (i j : Nat) (sep : Str) (d : Doc) : Outcome Report × Doc :=
  if i ≥ j then (.err, d)
  else
    match EventCmd.bodySplit d.text with
    | none => (.err, d)
    | some (pre, body) =>
      match (EventCmd.eventsIn (splitOn '\n' body) (byteLen pre))[i]?,
            (EventCmd.eventsIn (splitOn '\n' body) (byteLen pre))[j]? with
      | some (p1, l1), some (p2, l2) => mergeLines sep p1 l1 p2 l2 d
      | _, _ => (.err, d)

/-- split.rs lines 92-147. -/
def splitTimed (at_ : Str) (t : Nat) (p : Nat) (l : Str) (e : EventCmd.Ev) (s f : Nat) (d : Doc) : Outcome Report × Doc :=
  if t ≤ s ∨ t ≥ f then (.err, d)
  else replaced d ⟨p, p + byteLen l⟩ (EventCmd.build { e with fin := at_ } ++ '\n' :: EventCmd.build { e with start := at_ })

/-- split.rs lines 82-147. -/
def splitLine (at_ : Str) (t : Nat) (p : Nat) (l : Str) (d : Doc) : Outcome Report × Doc :=
  match EventCmd.parseEventLine l with
  | .err => (.err, d)
  | .panic => (.panic, d)
  | .ok e =>
    match Time.parseAssTime e.start with
    | .err => (.err, d)
    | .overflow => (.panic, d)
    | .ok s =>
      match Time.parseAssTime e.fin with
      | .err => (.err, d)
      | .overflow => (.panic, d)
      | .ok f => splitTimed at_ t p l e s f d

/-- `SplitEventCommand::execute`, split.rs lines 39-162. -/
def splitEvent (k : Nat) (at_ : Str) (d : Doc) : Outcome Report × Doc :=
  match Time.parseAssTime at_ with
  | .err => (.err, d)
  | .overflow => (.panic, d)
  | .ok t =>
    match EventCmd.bodySplit d.text with
    | none => (.err, d)
    | some (pre, body) =>
      match (EventCmd.eventsIn (splitOn '\n' body) (byteLen pre))[k]? with
      | some (p, l) => splitLine at_ t p l d
      | none => (.err, d)

/-- A single deletion, reported as such: delete.rs lines 75-80. -/
def deleted (d : Doc) (r : Range) : Outcome Report × Doc :=
  match d.delete r with
  | (.ok _, d') => (.ok (some (⟨r.start, r.start⟩, r.start)), d')
  | (.err, d') => (.err, d')
  | (.panic, d') => (.panic, d')

/-- `DeleteEventCommand::execute`, delete.rs lines 27-87. -/
def deleteEvent (k : Nat) (d : Doc) : Outcome Report × Doc :=
  match EventCmd.bodySplit d.text with
  | none => (.err, d)
  | some (pre, body) =>
    match EventCmd.findEvent k (EventCmd.rowsNl body) (byteLen pre) 0 with
    | .ok (some r) => deleted d r
    | .ok none => (.err, d)
    | .err => (.err, d)
    | .panic => (.panic, d)

/-- The earliest start, batch_delete.rs lines 83 and 91-94. -/
def earliest (len : Nat) : List Range → Nat
  | [] => len
  | r :: rs => min r.start (earliest len rs)

/-- `BatchDeleteEventsCommand::execute`, batch_delete.rs lines 28-106. -/
def batchDelete (is : List Nat) (d : Doc) : Outcome Report × Doc :=
  if is = [] then (.ok none, d)
  else
    match EventCmd.bodySplit d.text with
    | none => (.err, d)
    | some (pre, body) =>
      match EventCmd.allEvents (EventCmd.rowsNl body) (byteLen pre) 0 with
      | .ok es =>
        let rs := (es.reverse.filter (fun e => is.contains e.1)).map (·.2)
        match EventCmd.deleteRanges rs d with
        | (.ok _, d') =>
          (.ok (if rs = [] then none
            else some (⟨earliest (byteLen d.text) rs, earliest (byteLen d.text) rs⟩, earliest (byteLen d.text) rs)), d')
        | (.err, d') => (.err, d')
        | (.panic, d') => (.panic, d')
      | .err => (.err, d)
      | .panic => (.panic, d)

/-- What `AddFontCommand` and `AddGraphicCommand` report, add.rs lines 49-90 and 139-180: the place of the entry. -/
def addMedia (hd key name : Str) (lines : List Str) (c : Str) : Range × Nat :=
  let n := byteLen (Media.entry key name lines)
  match Media.parts hd c with
  | some (pre, sec, _) => (⟨byteLen pre + byteLen sec, byteLen pre + byteLen sec + n⟩, byteLen pre + byteLen sec + n)
  | none =>
    let p := byteLen c + (if endsWith ['\n'] c then 0 else 1) + byteLen hd + 1
    (⟨p, p + n⟩, p + n)

end Verif.Report
