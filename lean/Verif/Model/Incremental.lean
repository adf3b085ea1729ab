import Verif.Model.Update
import Verif.Model.StrX
/-!
# Incremental parsing — `crates/ass-core/parser/script/{incremental,partial}.rs`, `parser/incremental/*.rs`,
`parser/streaming/source.rs`
-/
namespace Verif.Incremental
open Verif
open Verif.Parser
open Verif.Update (Kind kind span)

/-- `TextChange`, incremental/range_adjust.rs lines 10-17, without the line range, which is not used.  Ranges are taken to
have `start ≤ stop`. -/
structure TextChange where
  start : Nat
  stop : Nat
  text : Str
deriving DecidableEq, Repr

/-- The change touches the span, incremental.rs lines 35-48. -/
def touches (c : TextChange) (s : Span) : Bool :=
  (decide (c.start < s.stop) && decide (c.stop > s.start)) || (decide (c.start = c.stop) && decide (c.start = s.stop))

/-- `affected_sections`, incremental.rs lines 28-52. -/
def affected (s : Script) (c : TextChange) : List Kind :=
  (s.sections.filter (fun sec => (span sec).any (touches c))).map kind

/-- The headers searched for, incremental.rs lines 104-110. -/
def headerOf : Kind → Str
  | .info => "[Script Info]".toList
  | .styles => "[V4+ Styles]".toList
  | .events => "[Events]".toList
  | .fonts => "[Fonts]".toList
  | .graphics => "[Graphics]".toList

/-- The text of a section in the new source, incremental.rs lines 124-142, as the text from the header on. -/
def sectionText (new : Str) (k : Kind) (next : Option Kind) : Option Str :=
  match splitOnceStr (headerOf k) new with
  | none => none
  | some (_, rest) => match next with
    | none => some (headerOf k ++ rest)
    | some n => match splitOnceStr (headerOf n) rest with
      | some (a, _) => some (headerOf k ++ a)
      | none => some (headerOf k ++ rest)

/-- A section parsed anew, incremental.rs lines 144-156. -/
def reparse (new : Str) (k : Kind) (next : Option Kind) : Option Section :=
  match sectionText new k next with
  | none => none
  | some t => (parse t).bind (fun s => s.sections.find? (fun x => kind x = k))

/-- A byte number moved by the change, partial.rs lines 101-111. -/
def moved (c : TextChange) (n : Nat) : Nat :=
  if byteLen c.text ≥ c.stop - c.start then n + (byteLen c.text - (c.stop - c.start)) else n - ((c.stop - c.start) - byteLen c.text)

/-- `adjust_span`, partial.rs lines 100-114. -/
def movedSpan (c : TextChange) (s : Span) : Span := ⟨moved c s.start, moved c s.stop, s.line, s.col⟩

/-- `adjust_section_spans`, partial.rs lines 89-168. -/
def movedSection (c : TextChange) : Section → Section
  | .info f s => .info f (movedSpan c s)
  | .styles l => .styles (l.map (fun x => (x.1, movedSpan c x.2)))
  | .events l => .events (l.map (fun x => (x.1, movedSpan c x.2)))
  | .fonts l => .fonts (l.map (fun m => { m with span := movedSpan c m.span }))
  | .graphics l => .graphics (l.map (fun m => { m with span := movedSpan c m.span }))

/-- A section that is not affected, incremental.rs lines 160-171. -/
def keep (c : TextChange) (sec : Section) : Section :=
  match span sec with
  | some s => if c.stop ≤ s.start then movedSection c sec else sec
  | none => sec

/-- The loop over the sections, incremental.rs lines 113-173. -/
def renew (new : Str) (c : TextChange) (aff : List Kind) : List Section → List Section
  | [] => []
  | sec :: l =>
    (if aff.contains (kind sec) then (reparse new (kind sec) (l.head?.map kind)).toList else [keep c sec]) ++ renew new c aff l

/-- `parse_incremental`, incremental.rs lines 71-184. -/
def parseIncremental (s : Script) (new : Str) (c : TextChange) : Script :=
  if affected s c = [] then ⟨s.version, s.sections, [], s.stylesFmt, s.eventsFmt⟩
  else ⟨s.version, renew new c (affected s c) s.sections, [], s.stylesFmt, s.eventsFmt⟩

/-- `build_modified_source`, streaming/source.rs lines 24-38; `none`: panic. -/
def modifiedSource (src : Str) (a b : Nat) (text : Str) : Option Str :=
  match takeBytes src a, dropBytes src b with
  | some p, some q => some (p ++ text ++ q)
  | _, _ => none

/-- `adjust_range_for_change`, range_adjust.rs lines 24-64. -/
def adjustRange (a b : Nat) (c : TextChange) : Nat × Nat :=
  if c.stop ≤ a then
    if byteLen c.text ≥ c.stop - c.start then (a + (byteLen c.text - (c.stop - c.start)), b + (byteLen c.text - (c.stop - c.start)))
    else (a - (c.stop - c.start - byteLen c.text), b - (c.stop - c.start - byteLen c.text))
  else if c.start ≥ b then (a, b)
  else (min a c.start,
    if c.stop ≥ b then c.start + byteLen c.text
    else if byteLen c.text ≥ c.stop - c.start then b + (byteLen c.text - (c.stop - c.start))
    else b - (c.stop - c.start - byteLen c.text))

/-- The loop of `calculate_line_number`, line_calc.rs lines 40-48. -/
def lineFrom (pos : Nat) : Nat → Nat → Str → Nat
  | line, _, [] => line
  | line, cur, ch :: s => if cur ≥ pos then line else lineFrom pos (if ch = '\n' then line + 1 else line) (cur + ch.utf8Size) s

/-- `calculate_line_number`, line_calc.rs lines 36-51. -/
def lineNumber (src : Str) (pos : Nat) : Nat := lineFrom pos 1 0 src

/-- The loop of `calculate_line_range`, line_calc.rs lines 13-25: start line, end line, line. -/
def rangeFrom (a b : Nat) : Nat → Nat → Nat → Str → Nat × Nat × Nat
  | line, _, sl, [] => (sl, 0, line)
  | line, cur, sl, ch :: s =>
    let sl := if cur ≥ a ∧ sl = 0 then line else sl
    if cur ≥ b then (sl, line, line) else rangeFrom a b (if ch = '\n' then line + 1 else line) (cur + ch.utf8Size) sl s

/-- `calculate_line_range`, line_calc.rs lines 7-32. -/
def lineRange (src : Str) (a b : Nat) : Nat × Nat :=
  let r := rangeFrom a b 1 0 0 src
  (r.1, if r.2.1 = 0 then r.2.2 else r.2.1)

end Verif.Incremental
