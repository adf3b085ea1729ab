import Verif.Model.Ast
/-!
# The script parser — `crates/ass-core/parser/{main,sections,binary_data,position_tracker,script}`

A position in the source is kept as the text that remains with its byte offset.  Loops take a number of rounds and return
`none` when it runs out (the property that this never happens is proved).  Left out: the warning about odd byte order
marks, the "did you mean" suggestion for unknown sections, section processors of extensions, the texts of messages.  Line
and column numbers do not overflow 32 bits since the source is limited to 50 MB.
-/
namespace Verif.Parser
open Verif
open Verif.Ast

/-- `Span`, ast/mod.rs. -/
structure Span where
  start : Nat
  stop : Nat
  line : Nat
  col : Nat
deriving DecidableEq, Repr

/-- `PositionTracker`, position_tracker/tracker.rs lines 10-21. -/
structure Tr where
  rest : Str
  off : Nat
  line : Nat
  col : Nat
deriving DecidableEq, Repr

/-- What `skip_whitespace` of the tracker skips, tracker.rs line 93. -/
def isBlank (c : Char) : Bool := c = ' ' || c = '\t' || c = '\r'

/-- `PositionTracker::skip_whitespace`, tracker.rs lines 91-99. -/
def Tr.skipWs (t : Tr) : Tr :=
  let k := (t.rest.takeWhile isBlank).length
  ⟨t.rest.dropWhile isBlank, t.off + k, t.line, t.col + k⟩

/-- `PositionTracker::skip_line`, tracker.rs lines 102-109 with `advance`, lines 67-81. -/
def Tr.skipLine (t : Tr) : Tr :=
  match splitOnce '\n' t.rest with
  | some (l, r) => ⟨r, t.off + byteLen l + 1, t.line + 1, 1⟩
  | none => ⟨[], t.off + byteLen t.rest, t.line, t.col + byteLen t.rest⟩

/-- `PositionTracker::advance(1)` over a newline, tracker.rs lines 67-81. -/
def Tr.newline (t : Tr) : Tr := ⟨t.rest.drop 1, t.off + 1, t.line + 1, 1⟩

/-- `current_line`, e.g. sections/events/parser.rs lines 110-114. -/
def Tr.current (t : Tr) : Str := t.rest.takeWhile (· ≠ '\n')

/-- `at_next_section` of the section parsers, e.g. sections/events/parser.rs lines 118-120. -/
def Tr.atSection (t : Tr) : Bool := startsWith ['['] (trimStart t.rest)

/-- `span_for`, tracker.rs lines 131-133. -/
def Tr.spanFor (t : Tr) (n : Nat) : Span := ⟨t.off, t.off + n, t.line, t.col⟩

/-- `span_from`, tracker.rs lines 125-127. -/
def Tr.spanFrom (t start : Tr) : Span := ⟨start.off, t.off, start.line, start.col⟩

/-- Comment lines of the text sections, e.g. sections/events/parser.rs line 132. -/
def isComment (s : Str) : Bool := startsWith [';'] s || startsWith ['#'] s

/-- Comment lines of the binary sections, binary_parser.rs line 142. -/
def isBinComment (s : Str) : Bool := startsWith [';'] s || startsWith "!:".toList s

/-- `skip_whitespace_and_comments` of the section parsers, e.g. sections/events/parser.rs lines 123-145,
binary_parser.rs lines 133-155. -/
def skipBlank (com : Str → Bool) : Nat → Tr → Option Tr
  | 0, _ => none
  | n + 1, t =>
    if t.skipWs.rest = [] then some t.skipWs
    else if com t.skipWs.rest then skipBlank com n t.skipWs.skipLine
    else if startsWith ['\n'] t.skipWs.rest then skipBlank com n t.skipWs.newline
    else some t.skipWs

/-- The loop of the text sections: sections/script_info/parser.rs lines 76-112, sections/styles/parser.rs lines 66-94,
sections/events/parser.rs lines 68-90, which differ only in what they do with a line. -/
def sectionLoop {σ : Type} (step : σ → Tr → Str → σ) : Nat → σ → Tr → Option (σ × Tr)
  | 0, _, _ => none
  | n + 1, s, t =>
    if t.rest = [] ∨ t.atSection then some (s, t)
    else match skipBlank isComment (t.rest.length + 1) t with
      | none => none
      | some t =>
        if t.rest = [] ∨ t.atSection then some (s, t)
        else if trim t.current = [] then sectionLoop step n s t.skipLine
        else sectionLoop step n (step s t (trim t.current)) t.skipLine

/-- `ScriptVersion`, version.rs. -/
inductive Version where
  | ssa4 | ass4 | ass4plus
deriving DecidableEq, Repr

/-- `ScriptVersion::from_header`, version.rs lines 72-79. -/
def fromHeader (s : Str) : Option Version :=
  if trim s = "v4.00".toList then some .ssa4
  else if trim s = "v4.00+".toList then some .ass4
  else if trim s = "v4.00++".toList ∨ trim s = "v4.00+ extended".toList then some .ass4plus
  else none

/-- What the parser reports, with the line number: `ParseIssue`. -/
inductive Issue where
  | infoLine (line : Nat)
  | styleFields (line : Nat)
  | eventFields (line : Nat)
  | unknown (name : Str) (line : Nat)
  | noHeader (line : Nat)
  | unclosed (line : Nat)
  | tooLarge
deriving DecidableEq, Repr

/-- State of the script info parser. -/
structure InfoSt where
  fields : List (Str × Str)
  version : Option Version
  issues : List Issue
deriving DecidableEq, Repr

/-- One line of a script info section, sections/script_info/parser.rs lines 91-109. -/
def infoStep (s : InfoSt) (t : Tr) (line : Str) : InfoSt :=
  match splitOnce ':' line with
  | some (k, v) =>
    { s with
      version := if trim k = "ScriptType".toList then (fromHeader (trim v)).or s.version else s.version
      fields := s.fields ++ [(trim k, trim v)] }
  | none => { s with issues := s.issues ++ [.infoLine t.line] }

/-- State of the styles parser. -/
structure StylesSt where
  fmt : Option (List Str)
  styles : List (Style × Span)
  issues : List Issue
deriving DecidableEq, Repr

/-- `parse_format_line`, sections/styles/parser.rs lines 137-142, sections/events/parser.rs lines 102-107. -/
def formatFields (data : Str) : List Str := (splitOn ',' data).map trim

/-- `parse_style_line_internal`, sections/styles/parse_internal.rs lines 16-129. -/
def styleInternal (s : StylesSt) (t : Tr) (data : Str) : StylesSt :=
  let format := s.fmt.getD styleFormat
  let (rest, parent) := styleParent data
  let parts := splitOn ',' rest
  let issues := if parts.length ≠ format.length then s.issues ++ [.styleFields t.line] else s.issues
  if parts.length < format.length then { s with issues := issues }
  else { s with issues := issues, styles := s.styles ++ [(styleOf parent format parts, t.spanFor (byteLen t.current))] }

/-- One line of a styles section, sections/styles/parser.rs lines 81-91. -/
def styleStep (s : StylesSt) (t : Tr) (line : Str) : StylesSt :=
  match stripPrefix "Format:".toList line with
  | some d => { s with fmt := some (formatFields d) }
  | none => match stripPrefix "Style:".toList line with
    | some d => styleInternal s t (trim d)
    | none => s

/-- State of the events parser. -/
structure EventsSt where
  fmt : Option (List Str)
  events : List (Event × Span)
  issues : List Issue
deriving DecidableEq, Repr

/-- One line of an events section, sections/events/parser.rs lines 83-87, event_data.rs lines 17-119. -/
def eventStep (s : EventsSt) (t : Tr) (line : Str) : EventsSt :=
  match stripPrefix "Format:".toList line with
  | some d => { s with fmt := some (formatFields d) }
  | none => match eventKind line with
    | none => s
    | some (k, d) => match eventData k (trim d) (s.fmt.getD eventFormat) with
      | .error _ => { s with issues := s.issues ++ [.eventFields t.line] }
      | .ok e => { s with events := s.events ++ [(e, t.spanFor (byteLen t.current))] }

/-- `Font` / `Graphic`, ast/media. -/
structure Media where
  filename : Str
  data : List Str
  span : Span
deriving DecidableEq, Repr

/-- `collect_data_lines`, binary_parser.rs lines 90-118. -/
def collectData : Nat → List Str → Tr → Option (List Str × Tr)
  | 0, _, _ => none
  | n + 1, acc, t =>
    if t.rest = [] ∨ t.atSection then some (acc, t)
    else if trim t.current = [] ∨ startsWith ['['] (trim t.current) then some (acc, t)
    else if startsWith [';'] (trim t.current) ∨ startsWith ['!'] (trim t.current) then collectData n acc t.skipLine
    else if startsWith "# ".toList (trim t.current) ∨ trim t.current = ['#'] then some (acc, t)
    else collectData n (acc ++ [t.current]) t.skipLine

/-- `parse_entry`, binary_parser.rs lines 65-87. -/
def parseEntry (key : Str) (t : Tr) : Option (Option Media × Tr) :=
  match splitOnce ':' t.current with
  | some (k, v) =>
    if trim k = key then
      match collectData (t.rest.length + 1) [] t.skipLine with
      | none => none
      | some (d, t') => some (some ⟨trim v, d, t'.spanFrom t⟩, t')
    else some (none, t.skipLine)
  | none => some (none, t.skipLine)

/-- `BinaryDataParser::parse`, binary_parser.rs lines 44-62. -/
def binaryLoop (key : Str) : Nat → List Media → Tr → Option (List Media × Tr)
  | 0, _, _ => none
  | n + 1, acc, t =>
    if t.rest = [] ∨ t.atSection then some (acc, t)
    else match skipBlank isBinComment (t.rest.length + 1) t with
      | none => none
      | some t =>
        if t.rest = [] ∨ t.atSection then some (acc, t)
        else match parseEntry key t with
          | none => none
          | some (e, t) => binaryLoop key n (acc ++ e.toList) t

/-- `Section`, ast/section. -/
inductive Section where
  | info (fields : List (Str × Str)) (span : Span)
  | styles (l : List (Style × Span))
  | events (l : List (Event × Span))
  | fonts (l : List Media)
  | graphics (l : List Media)
deriving DecidableEq, Repr

/-- `Parser`, main/state.rs lines 17-37. -/
structure St where
  rest : Str
  off : Nat
  line : Nat
  version : Version
  sections : List Section
  issues : List Issue
  stylesFmt : Option (List Str)
  eventsFmt : Option (List Str)
deriving DecidableEq, Repr

/-- `Parser::skip_line`, main/helpers.rs lines 26-33. -/
def St.skipLine (p : St) : St :=
  match splitOnce '\n' p.rest with
  | some (l, r) => { p with rest := r, off := p.off + byteLen l + 1, line := p.line + 1 }
  | none => { p with rest := [], off := p.off + byteLen p.rest }

/-- `Parser::skip_whitespace_and_comments`, main/helpers.rs lines 36-49. -/
def skipTop : Nat → St → Option St
  | 0, _ => none
  | n + 1, p =>
    if p.rest = [] then some p
    else if startsWith [';'] (trimStart p.rest) ∨ startsWith "!:".toList (trimStart p.rest) then skipTop n p.skipLine
    else if trimStart p.rest ≠ p.rest then
      skipTop n { p with rest := trimStart p.rest, off := p.off + (byteLen p.rest - byteLen (trimStart p.rest)) }
    else some p

/-- `Parser::at_next_section`, main/helpers.rs lines 12-23. -/
def atNext (rest : Str) : Bool :=
  startsWith ['['] (trimStart rest) && ((trimStart rest).takeWhile (· ≠ '\n')).contains ']'

/-- `Parser::skip_to_next_section`, main/helpers.rs lines 52-104, without the suggestion.  (The guard of lines 96-100
never applies: a line was skipped.) -/
def skipToNext : Nat → St → Option St
  | 0, _ => none
  | n + 1, p =>
    if p.rest = [] then some p
    else if atNext p.rest then some p
    else skipToNext n p.skipLine

/-- Continue after a section parser: main/section.rs, e.g. lines 45-53. -/
def St.after (p : St) (t : Tr) : St := { p with rest := t.rest, off := t.off, line := t.line }

/-- The tracker of a section parser, e.g. sections/events/parser.rs lines 24-35. -/
def St.tracker (p : St) : Tr := ⟨p.rest, p.off, p.line, 1⟩

/-- The body of a section, `Parser::parse_section`, main/section.rs lines 39-131.  `none`: a loop does not end; the
`Bool`: an unknown section. -/
def parseBody (name : Str) (p : St) : Option St :=
  let t := p.tracker
  let n := p.rest.length + 1
  if trim name = "Script Info".toList then
    match sectionLoop infoStep n ⟨[], none, []⟩ t with
    | none => none
    | some (s, t') => some { p.after t' with
        version := s.version.getD p.version, issues := p.issues ++ s.issues,
        sections := p.sections ++ [.info s.fields (t'.spanFrom t)] }
  else if trim name = "V4+ Styles".toList ∨ trim name = "V4 Styles".toList ∨ trim name = "V4++ Styles".toList then
    match sectionLoop styleStep n ⟨none, [], []⟩ t with
    | none => none
    | some (s, t') => some { p.after t' with
        stylesFmt := if s.fmt = none ∧ s.styles ≠ [] then some styleFormat else s.fmt,
        issues := p.issues ++ s.issues, sections := p.sections ++ [.styles s.styles] }
  else if trim name = "Events".toList then
    match sectionLoop eventStep n ⟨none, [], []⟩ t with
    | none => none
    | some (s, t') => some { p.after t' with
        eventsFmt := s.fmt, issues := p.issues ++ s.issues, sections := p.sections ++ [.events s.events] }
  else if trim name = "Fonts".toList then
    match binaryLoop "fontname".toList n [] t with
    | none => none
    | some (l, t') => some { p.after t' with sections := p.sections ++ [.fonts l] }
  else if trim name = "Graphics".toList then
    match binaryLoop "filename".toList n [] t with
    | none => none
    | some (l, t') => some { p.after t' with sections := p.sections ++ [.graphics l] }
  else
    match skipToNext n p with
    | none => none
    | some p => match skipToNext (p.rest.length + 1) p with
      | none => none
      | some q => some { q with issues := q.issues ++ [.unknown name p.line] }

/-- One round of the loop of `Parser::parse` after `skip_whitespace_and_comments`, main/parse.rs lines 61-82 with
main/section.rs lines 22-37. -/
def parseOne (p : St) : Option St :=
  if startsWith ['['] p.rest then
    match splitOnce ']' p.rest with
    | some (a, r) => parseBody (a.drop 1) { p with rest := r, off := p.off + byteLen a + 1 }.skipLine
    | none => skipToNext (p.rest.length + 1) { p with issues := p.issues ++ [.unclosed p.line] }
  else skipToNext (p.rest.length + 1) { p with issues := p.issues ++ [.noHeader p.line] }

/-- The loop of `Parser::parse`, main/parse.rs lines 54-83. -/
def mainLoop : Nat → St → Option St
  | 0, _ => none
  | n + 1, p =>
    if p.rest = [] then some p
    else match skipTop (p.rest.length + 1) p with
      | none => none
      | some p =>
        if p.rest = [] then some p
        else match parseOne p with
          | none => none
          | some p => mainLoop n p

/-- `Script`, script/mod.rs, as far as `Parser::parse` fills it in. -/
structure Script where
  version : Version
  sections : List Section
  issues : List Issue
  stylesFmt : Option (List Str)
  eventsFmt : Option (List Str)
deriving DecidableEq, Repr

/-- `Parser::new`, main/state.rs lines 41-54, after the byte order mark (main/parse.rs lines 50-52). -/
def initial (src : Str) : St :=
  match src with
  | c :: s => if c = Char.ofNat 0xFEFF then ⟨s, 3, 1, .ass4, [], [], none, none⟩ else ⟨c :: s, 0, 1, .ass4, [], [], none, none⟩
  | [] => ⟨[], 0, 1, .ass4, [], [], none, none⟩

/-- `Parser::parse`, main/parse.rs lines 18-93; `none`: a loop does not end. -/
def parse (src : Str) : Option Script :=
  if byteLen src > 50 * 1024 * 1024 then some ⟨.ass4, [], [.tooLarge], none, none⟩
  else match mainLoop (src.length + 1) (initial src) with
    | none => none
    | some p => some ⟨p.version, p.sections, p.issues, p.stylesFmt, p.eventsFmt⟩

/-- `ScriptInfo::to_ass_string`, ast/script_info/info.rs lines 155-162. -/
def infoToAss (fields : List (Str × Str)) : Str :=
  "[Script Info]\n".toList ++ fields.flatMap (fun f => f.1 ++ ": ".toList ++ f.2 ++ ['\n'])

/-- `Font::to_ass_string`, `Graphic::to_ass_string`, ast/media/font.rs lines 94-101, graphic.rs lines 82-89. -/
def mediaToAss (key : Str) (m : Media) : Str :=
  key ++ ": ".toList ++ m.filename ++ ['\n'] ++ m.data.flatMap (fun l => l ++ ['\n'])

/-- The format line, script/serialize.rs lines 46-50, 66-70. -/
def formatToAss (fmt : Option (List Str)) : Str :=
  match fmt with
  | some f => "Format: ".toList ++ joinStr ", ".toList f ++ ['\n']
  | none => []

/-- A section in `Script::to_ass_string`, script/serialize.rs lines 38-94. -/
def sectionToAss (sf ef : Option (List Str)) : Section → Str
  | .info fields _ => infoToAss fields
  | .styles l => "[V4+ Styles]\n".toList ++ formatToAss sf ++
      l.flatMap (fun s => (match sf with | some f => s.1.toAssWith f | none => s.1.toAss) ++ ['\n'])
  | .events l => "[Events]\n".toList ++ formatToAss ef ++
      l.flatMap (fun e => (match ef with | some f => e.1.toAssWith f | none => e.1.toAss) ++ ['\n'])
  | .fonts l => "[Fonts]\n".toList ++ l.flatMap (mediaToAss "fontname".toList)
  | .graphics l => "[Graphics]\n".toList ++ l.flatMap (mediaToAss "filename".toList)

/-- `Script::to_ass_string`, script/serialize.rs lines 29-98. -/
def toAss (s : Script) : Str := joinStr ['\n'] (s.sections.map (sectionToAss s.stylesFmt s.eventsFmt))

end Verif.Parser
