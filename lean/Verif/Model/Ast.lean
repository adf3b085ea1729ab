import Verif.Model.StrX
import Verif.Model.Outcome
/-!
# Event and style lines — `crates/ass-core/parser/{ast,sections}`

Spans are kept beside events and styles (see `Model/Parser.lean`), not inside.
-/
namespace Verif.Ast
open Verif

/-- `u8::to_ascii_lowercase`. -/
def lower (c : Char) : Char := if 'A' ≤ c ∧ c ≤ 'Z' then Char.ofNat (c.toNat + 32) else c

/-- `str::eq_ignore_ascii_case`. -/
def eqIgnoreCase (a b : Str) : Bool := a.map lower == b.map lower

/-- `EventType`, ast/event/event_type.rs. -/
inductive Kind where
  | dialogue | comment | picture | sound | movie | command
deriving DecidableEq, Repr

/-- `EventType::as_str`, ast/event/event_type.rs lines 62-73. -/
def Kind.str : Kind → Str
  | .dialogue => "Dialogue".toList
  | .comment => "Comment".toList
  | .picture => "Picture".toList
  | .sound => "Sound".toList
  | .movie => "Movie".toList
  | .command => "Command".toList

/-- `Event`, ast/event/event_struct.rs lines 32-74, without the span. -/
structure Event where
  kind : Kind
  layer : Str
  start : Str
  stop : Str
  style : Str
  name : Str
  marginL : Str
  marginR : Str
  marginV : Str
  marginT : Option Str
  marginB : Option Str
  effect : Str
  text : Str
deriving DecidableEq, Repr

/-- The default format, e.g. sections/events/static_parser.rs lines 70-73. -/
def eventFormat : List Str :=
  ["Layer".toList, "Start".toList, "End".toList, "Style".toList, "Name".toList, "MarginL".toList, "MarginR".toList,
   "MarginV".toList, "Effect".toList, "Text".toList]

/-- `get_field`, static_parser.rs lines 100-106: the trimmed part at the first position with that name. -/
def getField (fmt parts : List Str) (n : Str) : Str :=
  match fmt, parts with
  | f :: fmt, p :: parts => if eqIgnoreCase f n then trim p else getField fmt parts n
  | _, _ => []

/-- Whether the format has a field, e.g. static_parser.rs lines 79-81. -/
def hasField (fmt : List Str) (n : Str) : Bool := fmt.any (fun f => eqIgnoreCase f n)

/-- `has.then(|| get_field(n))`, static_parser.rs lines 121-128. -/
def optField (fmt parts : List Str) (n : Str) : Option Str :=
  if hasField fmt n then some (getField fmt parts n) else none

/-- The event of the parts of a line, static_parser.rs lines 108-132. -/
def eventOf (kind : Kind) (fmt parts : List Str) : Event :=
  { kind := kind
    layer := getField fmt parts "Layer".toList
    start := getField fmt parts "Start".toList
    stop := getField fmt parts "End".toList
    style := getField fmt parts "Style".toList
    name := getField fmt parts "Name".toList
    marginL := getField fmt parts "MarginL".toList
    marginR := getField fmt parts "MarginR".toList
    marginV := getField fmt parts "MarginV".toList
    marginT := optField fmt parts "MarginT".toList
    marginB := optField fmt parts "MarginB".toList
    effect := getField fmt parts "Effect".toList
    text := getField fmt parts "Text".toList }

/-- `parse_event_data_static`, static_parser.rs lines 63-133; also `parse_event_data`, event_data.rs lines 42-119 (which
reports a warning instead of the error).  The error carries the numbers of fields found and expected. -/
def eventData (kind : Kind) (data : Str) (format : List Str) : Except (Nat × Nat) Event :=
  let fmt := if format = [] then eventFormat else format
  let parts := if hasField fmt "Text".toList then splitn ',' fmt.length data else splitn ',' 10 data
  if parts.length < fmt.length then .error (parts.length, fmt.length)
  else .ok (eventOf kind fmt parts)

/-- The event type and the rest of an event line, static_parser.rs lines 40-56, event_data.rs lines 22-36. -/
def eventKind (line : Str) : Option (Kind × Str) :=
  let try_ (k : Kind) (e : Option (Kind × Str)) : Option (Kind × Str) :=
    match stripPrefix (k.str ++ [':']) line with
    | some d => some (k, d)
    | none => e
  try_ .dialogue (try_ .comment (try_ .picture (try_ .sound (try_ .movie (try_ .command none)))))

/-- `parse_event_line`, static_parser.rs lines 34-60; `none` is any error. -/
def parseEvent (line : Str) (format : List Str) : Option Event :=
  match eventKind line with
  | none => none
  | some (k, data) => match eventData k (trim data) format with
    | .ok e => some e
    | .error _ => none

/-- The value written for a field name, ast/event/serialization.rs lines 92-106. -/
def Event.value (e : Event) (f : Str) : Str :=
  if f = "Layer".toList then e.layer
  else if f = "Start".toList then e.start
  else if f = "End".toList then e.stop
  else if f = "Style".toList then e.style
  else if f = "Name".toList ∨ f = "Actor".toList then e.name
  else if f = "MarginL".toList then e.marginL
  else if f = "MarginR".toList then e.marginR
  else if f = "MarginV".toList then e.marginV
  else if f = "MarginT".toList then e.marginT.getD "0".toList
  else if f = "MarginB".toList then e.marginB.getD "0".toList
  else if f = "Effect".toList then e.effect
  else if f = "Text".toList then e.text
  else []

/-- `Event::to_ass_string_with_format`, ast/event/serialization.rs lines 87-111. -/
def Event.toAssWith (e : Event) (format : List Str) : Str :=
  e.kind.str ++ ": ".toList ++ joinStr [','] (format.map e.value)

/-- `Event::to_ass_string`, ast/event/serialization.rs lines 40-58. -/
def Event.toAss (e : Event) : Str :=
  e.kind.str ++ ": ".toList ++ joinStr [','] [e.layer, e.start, e.stop, e.style, e.name, e.marginL, e.marginR, e.marginV,
    e.effect, e.text]

/-- `Style`, ast/style/definition.rs, without the span. -/
structure Style where
  name : Str
  parent : Option Str
  fontname : Str
  fontsize : Str
  primary : Str
  secondary : Str
  outlineColour : Str
  back : Str
  bold : Str
  italic : Str
  underline : Str
  strikeout : Str
  scaleX : Str
  scaleY : Str
  spacing : Str
  angle : Str
  borderStyle : Str
  outline : Str
  shadow : Str
  alignment : Str
  marginL : Str
  marginR : Str
  marginV : Str
  marginT : Option Str
  marginB : Option Str
  encoding : Str
  relativeTo : Option Str
deriving DecidableEq, Repr

/-- The default format, e.g. sections/styles/parse_line.rs lines 53-77. -/
def styleFormat : List Str :=
  ["Name".toList, "Fontname".toList, "Fontsize".toList, "PrimaryColour".toList, "SecondaryColour".toList,
   "OutlineColour".toList, "BackColour".toList, "Bold".toList, "Italic".toList, "Underline".toList, "StrikeOut".toList,
   "ScaleX".toList, "ScaleY".toList, "Spacing".toList, "Angle".toList, "BorderStyle".toList, "Outline".toList,
   "Shadow".toList, "Alignment".toList, "MarginL".toList, "MarginR".toList, "MarginV".toList, "Encoding".toList]

/-- The parent of an inheriting style line, parse_line.rs lines 38-48. -/
def styleParent (line : Str) : Str × Option Str :=
  if startsWith ['*'] (trimStart line) then
    match splitOnce ',' line with
    | none => (line, none)
    | some (a, b) => (b, some (trim ((trimStart a).dropWhile (· = '*'))))
  else (line, none)

/-- The style of the parts of a line, parse_line.rs lines 107-139. -/
def styleOf (parent : Option Str) (fmt parts : List Str) : Style :=
  { name := getField fmt parts "Name".toList
    parent := parent
    fontname := getField fmt parts "Fontname".toList
    fontsize := getField fmt parts "Fontsize".toList
    primary := getField fmt parts "PrimaryColour".toList
    secondary := getField fmt parts "SecondaryColour".toList
    outlineColour := getField fmt parts "OutlineColour".toList
    back := getField fmt parts "BackColour".toList
    bold := getField fmt parts "Bold".toList
    italic := getField fmt parts "Italic".toList
    underline := getField fmt parts "Underline".toList
    strikeout := getField fmt parts "StrikeOut".toList
    scaleX := getField fmt parts "ScaleX".toList
    scaleY := getField fmt parts "ScaleY".toList
    spacing := getField fmt parts "Spacing".toList
    angle := getField fmt parts "Angle".toList
    borderStyle := getField fmt parts "BorderStyle".toList
    outline := getField fmt parts "Outline".toList
    shadow := getField fmt parts "Shadow".toList
    alignment := getField fmt parts "Alignment".toList
    marginL := getField fmt parts "MarginL".toList
    marginR := getField fmt parts "MarginR".toList
    marginV := getField fmt parts "MarginV".toList
    marginT := optField fmt parts "MarginT".toList
    marginB := optField fmt parts "MarginB".toList
    encoding := getField fmt parts "Encoding".toList
    relativeTo := optField fmt parts "RelativeTo".toList }

/-- `parse_style_line`, parse_line.rs lines 32-140, of what follows `Style:`; `none` is the error. -/
def parseStyle (line : Str) (format : List Str) : Option Style :=
  let (rest, parent) := styleParent line
  let parts := splitOn ',' rest
  let fmt := if format = [] then styleFormat else format
  if parts.length < fmt.length then none
  else some (styleOf parent fmt parts)

/-- The value written for a field name, ast/style/conversion.rs lines 97-125. -/
def Style.value (s : Style) (f : Str) : Str :=
  if f = "Name".toList then s.name
  else if f = "Fontname".toList then s.fontname
  else if f = "Fontsize".toList then s.fontsize
  else if f = "PrimaryColour".toList then s.primary
  else if f = "SecondaryColour".toList then s.secondary
  else if f = "OutlineColour".toList ∨ f = "TertiaryColour".toList then s.outlineColour
  else if f = "BackColour".toList then s.back
  else if f = "Bold".toList then s.bold
  else if f = "Italic".toList then s.italic
  else if f = "Underline".toList then s.underline
  else if f = "Strikeout".toList ∨ f = "StrikeOut".toList then s.strikeout
  else if f = "ScaleX".toList then s.scaleX
  else if f = "ScaleY".toList then s.scaleY
  else if f = "Spacing".toList then s.spacing
  else if f = "Angle".toList then s.angle
  else if f = "BorderStyle".toList then s.borderStyle
  else if f = "Outline".toList then s.outline
  else if f = "Shadow".toList then s.shadow
  else if f = "Alignment".toList then s.alignment
  else if f = "MarginL".toList then s.marginL
  else if f = "MarginR".toList then s.marginR
  else if f = "MarginV".toList then s.marginV
  else if f = "MarginT".toList then s.marginT.getD "0".toList
  else if f = "MarginB".toList then s.marginB.getD "0".toList
  else if f = "Encoding".toList then s.encoding
  else if f = "RelativeTo".toList then s.relativeTo.getD "0".toList
  else []

/-- `Style::to_ass_string_with_format`, ast/style/conversion.rs lines 93-131. -/
def Style.toAssWith (s : Style) (format : List Str) : Str :=
  "Style: ".toList ++ joinStr [','] (format.map s.value)

/-- `Style::to_ass_string`, ast/style/conversion.rs lines 36-65. -/
def Style.toAss (s : Style) : Str :=
  "Style: ".toList ++ joinStr [','] [s.name, s.fontname, s.fontsize, s.primary, s.secondary, s.outlineColour, s.back,
    s.bold, s.italic, s.underline, s.strikeout, s.scaleX, s.scaleY, s.spacing, s.angle, s.borderStyle, s.outline,
    s.shadow, s.alignment, s.marginL, s.marginR, s.marginV, s.encoding]

end Verif.Ast
