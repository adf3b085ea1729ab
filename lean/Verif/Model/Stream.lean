import Verif.Model.StrX
import Verif.Model.Outcome
/-!
# Streaming parser — `crates/ass-core/parser/streaming/{parser.rs,processor/**,state/**,result.rs}`

The counters for benchmarks are left out.
-/
namespace Verif.Stream
open Verif

/-- How many bytes the first character has, and its number, going by the first byte. -/
def leading (b0 : Nat) (r : List Nat) : Nat × Nat :=
  if b0 < 0x80 then (1, b0)
  else if b0 < 0xE0 then (2, (b0 - 0xC0) * 64 + (r.headD 0 - 0x80))
  else if b0 < 0xF0 then (3, (b0 - 0xE0) * 4096 + (r.headD 0 - 0x80) * 64 + ((r.drop 1).headD 0 - 0x80))
  else (4, (b0 - 0xF0) * 262144 + (r.headD 0 - 0x80) * 4096 + ((r.drop 1).headD 0 - 0x80) * 64 + ((r.drop 2).headD 0 - 0x80))

/-- The character with this number at the start of the bytes, and what follows it. -/
def decodeAs (b : List Nat) (n : Nat × Nat) : Option (Char × List Nat) :=
  if utf8Enc (Char.ofNat n.2) = b.take n.1 then some (Char.ofNat n.2, b.drop n.1) else none

/-- One character at the start of the bytes, and what follows it: `none` if they do not start with the encoding of a
character (`core::str::from_utf8`, std behaviour). -/
def decodeOne : List Nat → Option (Char × List Nat)
  | [] => none
  | b0 :: r => decodeAs (b0 :: r) (leading b0 r)

/-- The characters of the bytes; `fuel = length` suffices. -/
def decodeAux : Nat → List Nat → Option Str
  | _, [] => some []
  | 0, _ :: _ => none
  | k + 1, b => match decodeOne b with
    | some (c, r) => (decodeAux k r).map (c :: ·)
    | none => none

/-- `core::str::from_utf8`. -/
def decode (b : List Nat) : Option Str := decodeAux b.length b

/-- `SectionKind`, state/section_kind.rs lines 11-24. -/
inductive Kind where
  | info | styles | events | fonts | graphics | unknown
deriving DecidableEq, Repr

/-- `SectionKind::from_header`, lines 41-50. -/
def Kind.ofHeader (header : Str) : Kind :=
  let h := trim header
  if h = "Script Info".toList then .info
  else if h = "V4+ Styles".toList ∨ h = "V4 Styles".toList then .styles
  else if h = "Events".toList then .events
  else if h = "Fonts".toList then .fonts
  else if h = "Graphics".toList then .graphics
  else .unknown

/-- `ParserState`, state/parser_state.rs lines 13-25, without the count of fields, which is always 0. -/
inductive State where
  | expecting
  | section (k : Kind)
  | event (k : Kind)
deriving DecidableEq, Repr

/-- `current_section`, lines 36-42. -/
def State.current : State → Option Kind
  | .expecting => none
  | .section k => some k
  | .event k => some k

/-- `StreamingContext`, state/context.rs lines 15-24. -/
structure Context where
  line : Nat
  current : Option Kind
  eventsFormat : Option Str
  stylesFormat : Option Str
deriving DecidableEq, Repr

/-- `LineProcessor`, processor/line_processor.rs lines 18-23. -/
structure Proc where
  state : State
  ctx : Context
deriving DecidableEq, Repr

/-- `LineProcessor::new`, lines 28-33. -/
def Proc.new : Proc := ⟨.expecting, ⟨0, none, none, none⟩⟩

/-- `process_section_header`, lines 75-93; the brackets have been found, so the slice is on boundaries. -/
def Proc.header (p : Proc) (t : Str) : Proc :=
  let k := Kind.ofHeader (t.drop 1).dropLast
  let c := { p.ctx with current := some k }
  ⟨.section k, match k with
    | .events => { c with eventsFormat := none }
    | .styles => { c with stylesFormat := none }
    | _ => c⟩

/-- `process_styles_line`, processor/section_lines.rs lines 29-40. -/
def Proc.stylesLine (p : Proc) (line : Str) : Proc :=
  match stripPrefix "Format:".toList (trim line) with
  | some f => { p with ctx := { p.ctx with stylesFormat := some (trim f) } }
  | none => p

/-- `process_events_line`, lines 43-59. -/
def Proc.eventsLine (p : Proc) (line : Str) : Proc :=
  match stripPrefix "Format:".toList (trim line) with
  | some f => { p with ctx := { p.ctx with eventsFormat := some (trim f) } }
  | none =>
    if startsWith "Dialogue:".toList (trim line) || startsWith "Comment:".toList (trim line) then { p with state := .event .events }
    else p

/-- `process_section_content`, line_processor.rs lines 96-111; the lines of other sections change nothing
(section_lines.rs lines 16-26 and 62-72). -/
def Proc.content (p : Proc) (line : Str) : Kind → Proc
  | .styles => p.stylesLine line
  | .events => p.eventsLine line
  | _ => p

/-- `process_line`, lines 44-72.  The batch of changes it returns is always empty. -/
def Proc.line (p : Proc) (line : Str) : Proc :=
  let q : Proc := { p with ctx := { p.ctx with line := p.ctx.line + 1 } }
  let t := trim line
  if t = [] ∨ startsWith [';'] t = true ∨ startsWith ['!', ':'] t = true then q
  else if startsWith ['['] t = true ∧ endsWith [']'] t = true then q.header t
  else match q.state with
    | .expecting => q
    | .section k => q.content line k
    | .event k => { q with state := .section k }

/-- Lines one after the other. -/
def Proc.run (p : Proc) (l : List Str) : Proc := l.foldl Proc.line p

/-- `StreamingParser`, parser.rs lines 19-30. -/
structure Parser where
  proc : Proc
  buffer : Str
  sections : List Str
deriving DecidableEq, Repr

/-- `StreamingParser::new`, lines 35-44. -/
def Parser.new : Parser := ⟨.new, [], []⟩

/-- The rest of `feed_chunk` once the chunk is text, lines 72-95. -/
def Parser.text (p : Parser) (chunk : Str) : Parser :=
  let b := p.buffer ++ chunk
  let l := lines b
  let n := if b.getLast? = some '\n' ∨ b.getLast? = some '\r' then l.length else l.length - 1
  ⟨p.proc.run (l.take n), if n < l.length then (l[n]?).getD [] else [], p.sections⟩

/-- `feed_chunk`, lines 64-106: `err` and the parser as it was when the bytes are not UTF-8.  The list of changes is always
empty. -/
def Parser.feed (p : Parser) (chunk : List Nat) : Outcome Parser :=
  if chunk = [] then .ok p
  else match decode chunk with
    | some s => .ok (p.text s)
    | none => .err

/-- Chunks one after the other, until one is refused. -/
def Parser.feedAll (p : Parser) : List (List Nat) → Outcome Parser
  | [] => .ok p
  | c :: l => match p.feed c with
    | .ok q => q.feedAll l
    | r => r

/-- The last line, `finish`, lines 114-116. -/
def Parser.flush (p : Parser) : Proc := if trim p.buffer = [] then p.proc else p.proc.line p.buffer

/-- The sections of the result of `finish`, lines 118-122. -/
def Parser.finish (p : Parser) : List Str := p.sections

/-- `reset`, lines 126-135. -/
def Parser.reset (_ : Parser) : Parser := ⟨.new, [], []⟩

end Verif.Stream
