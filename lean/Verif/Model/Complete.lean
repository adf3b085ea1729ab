import Verif.Model.Highlight
import Verif.Model.Sort
import Verif.Model.Outcome
import Verif.Model.Parser
/-!
# Auto-completion — `crates/ass-editor/extensions/builtin/auto_complete/*`

`char::is_alphanumeric` is the parameter `alnum` and `str::to_lowercase` the parameter `lower`.  Descriptions are left out.
-/
namespace Verif.Complete
open Verif

/-- `CompletionType`, types.rs lines 11-29; the other kinds are never made. -/
inductive Kind where
  | header | field | styleRef | tag
deriving DecidableEq

/-- What is offered: the text to insert, the label and the kind. -/
structure What where
  insert : Str
  label : Str
  kind : Kind
deriving DecidableEq

/-- `CompletionItem`, types.rs lines 32-46. -/
structure Item where
  what : What
  order : Nat
deriving DecidableEq

/-- `AutoCompleteConfig`, types.rs lines 96-110; `complete_values` and `min_chars` are never read. -/
structure Config where
  fields : Bool
  styles : Bool
  tags : Bool
  max : Nat

/-- `CompletionContext`, types.rs lines 81-93; the line is kept as the parts before and after the cursor (`column` is the size of
the first). -/
structure Ctx where
  before : Str
  after : Str
  sec : Option Str
  inTag : Bool
  tag : Option Str

def Ctx.line (c : Ctx) : Str := c.before ++ c.after

/-! ## context.rs -/

/-- The text after the last occurrence of a character, with what is before it (`rfind`). -/
def rsplit (x : Char) (s : Str) : Option (Str × Str) :=
  (splitOnce x s.reverse).map fun p => (p.2.reverse, p.1.reverse)

/-- The section the cursor is in, lines 34-40; the headers are told as in the highlighter. -/
def sectionOf (ls : List Str) : Option Str := ls.reverse.findSome? Highlight.header

/-- Whether the cursor is in an override block, lines 43-46. -/
def inTag (before : Str) : Bool :=
  match rsplit '{' before with
  | some (_, b) => !b.contains '}'
  | none => false

/-- The name of the tag typed, lines 49-62. -/
def tagAt (alnum : Char → Bool) (before : Str) : Option Str :=
  if inTag before then
    (rsplit '{' before).bind fun p => (rsplit '\\' p.2).map fun q => q.2.takeWhile alnum
  else none

/-- `get_completion_context`, lines 15-71; slicing outside of the text or within a character panics. -/
def context (alnum : Char → Bool) (text : Str) (offset : Nat) : Outcome Ctx :=
  match takeBytes text offset, dropBytes text offset with
  | some a, some b =>
    let r := (rsplit '\n' a).getD ([], a)
    let above := if (rsplit '\n' a).isSome then r.1 ++ ['\n'] else []
    .ok ⟨r.2, b.takeWhile (fun c => c != '\n'), sectionOf (lines above), inTag r.2, tagAt alnum r.2⟩
  | _, _ => .panic

/-- `should_complete_style`, lines 74-89. -/
def inStyleField (c : Ctx) : Bool :=
  (c.sec == some "Events".toList) &&
    (startsWith "Dialogue:".toList (trimStart c.line) || startsWith "Comment:".toList (trimStart c.line)) && c.before.count ',' == 3

/-! ## completions.rs and tags.rs -/

/-- The sections, completions.rs lines 18-25, without their opening brackets. -/
def sections : List Str :=
  ["Script Info]".toList, "V4+ Styles]".toList, "V4 Styles]".toList, "Events]".toList, "Fonts]".toList, "Graphics]".toList]

/-- The fields of a section, completions.rs lines 57-94. -/
def fieldsOf (sec : Str) : List Str :=
  if sec = "Script Info".toList then
    ["Title:".toList, "Original Script:".toList, "Original Translation:".toList, "Original Editing:".toList, "Original Timing:".toList,
     "Synch Point:".toList, "Script Updated By:".toList, "Update Details:".toList, "ScriptType:".toList, "Collisions:".toList,
     "PlayResX:".toList, "PlayResY:".toList, "PlayDepth:".toList, "Timer:".toList, "WrapStyle:".toList,
     "ScaledBorderAndShadow:".toList, "YCbCr Matrix:".toList]
  else if sec ∈ ["V4+ Styles".toList, "V4 Styles".toList] then ["Format:".toList, "Style:".toList]
  else if sec = "Events".toList then
    ["Format:".toList, "Dialogue:".toList, "Comment:".toList, "Picture:".toList, "Sound:".toList, "Movie:".toList, "Command:".toList]
  else []

/-- The tags and their examples, tags.rs lines 15-62; the names without their backslashes. -/
def tags : List (Str × Str) := [
  ("b".toList, "\\b1".toList),
  ("i".toList, "\\i1".toList),
  ("u".toList, "\\u1".toList),
  ("s".toList, "\\s1".toList),
  ("bord".toList, "\\bord2".toList),
  ("shad".toList, "\\shad2".toList),
  ("be".toList, "\\be1".toList),
  ("fn".toList, "\\fnArial".toList),
  ("fs".toList, "\\fs20".toList),
  ("fscx".toList, "\\fscx100".toList),
  ("fscy".toList, "\\fscy100".toList),
  ("fsp".toList, "\\fsp0".toList),
  ("frx".toList, "\\frx0".toList),
  ("fry".toList, "\\fry0".toList),
  ("frz".toList, "\\frz0".toList),
  ("fr".toList, "\\fr0".toList),
  ("fax".toList, "\\fax0".toList),
  ("fay".toList, "\\fay0".toList),
  ("c".toList, "\\c&H0000FF&".toList),
  ("1c".toList, "\\1c&H0000FF&".toList),
  ("2c".toList, "\\2c&H00FF00&".toList),
  ("3c".toList, "\\3c&HFF0000&".toList),
  ("4c".toList, "\\4c&H000000&".toList),
  ("alpha".toList, "\\alpha&H00&".toList),
  ("1a".toList, "\\1a&H00&".toList),
  ("2a".toList, "\\2a&H00&".toList),
  ("3a".toList, "\\3a&H00&".toList),
  ("4a".toList, "\\4a&H00&".toList),
  ("an".toList, "\\an5".toList),
  ("a".toList, "\\a2".toList),
  ("k".toList, "\\k100".toList),
  ("kf".toList, "\\kf100".toList),
  ("ko".toList, "\\ko100".toList),
  ("K".toList, "\\K100".toList),
  ("q".toList, "\\q2".toList),
  ("r".toList, "\\r".toList),
  ("pos".toList, "\\pos(640,360)".toList),
  ("move".toList, "\\move(0,0,100,100)".toList),
  ("org".toList, "\\org(640,360)".toList),
  ("fad".toList, "\\fad(200,200)".toList),
  ("fade".toList, "\\fade(255,0,0,0,1000,2000,3000)".toList),
  ("t".toList, "\\t(\\fs30)".toList),
  ("clip".toList, "\\clip(0,0,100,100)".toList),
  ("iclip".toList, "\\iclip(0,0,100,100)".toList),
  ("p".toList, "\\p1".toList),
  ("pbo".toList, "\\pbo0".toList)]

/-- Items numbered in their order. -/
def number (l : List What) : List Item := l.zipIdx.map fun p => ⟨p.1, p.2⟩

/-- `get_section_completions`, completions.rs lines 14-49: with the cursor before an opening bracket the slice of line 28 panics. -/
def sectionItems (lower : Str → Str) (c : Ctx) : Outcome (List Item) :=
  match c.line with
  | '[' :: _ =>
    match c.before with
    | [] => .panic
    | _ :: typed => .ok (number ((sections.filter fun n => typed = [] || startsWith (lower typed) (lower n)).map
        fun n => ⟨'[' :: n, '[' :: n, .header⟩))
  | _ => .ok (number (sections.map fun n => ⟨'[' :: n, '[' :: n, .header⟩))

/-- `get_field_completions`, completions.rs lines 52-110. -/
def fieldItems (lower : Str → Str) (sec : Str) (c : Ctx) : List Item :=
  let typed := trimStart c.line
  number (((fieldsOf sec).filter fun n => typed = [] || startsWith (lower typed) (lower n)).map fun n => ⟨n, n, .field⟩)

/-- The text tags must begin with, tags.rs lines 64-72. -/
def tagPrefix (c : Ctx) : Str :=
  match c.tag with
  | some t => t
  | none => ((rsplit '\\' c.before).map (·.2)).getD []

/-- `get_tag_completions`, tags.rs lines 14-90. -/
def tagItems (c : Ctx) : List Item :=
  number ((tags.filter fun t => tagPrefix c = [] || startsWith (tagPrefix c) t.1).map fun t => ⟨t.2, '\\' :: t.1, .tag⟩)

/-- `get_style_completions`, completions.rs lines 113-126. -/
def styleItems (names : List Str) : List Item := number (names.map fun n => ⟨n, n, .styleRef⟩)

/-! ## extension.rs -/

/-- `update_style_names`, lines 93-107, from the sections of the parsed script. -/
def styleNames (l : List Parser.Section) : List Str :=
  l.flatMap fun s => match s with
    | .styles l => l.map fun p => p.1.name
    | _ => []

/-- All completions before sorting, lines 60-83. -/
def gather (lower : Str → Str) (cfg : Config) (script : List Parser.Section) (c : Ctx) : Outcome (List Item) :=
  let rest := (match c.sec with
      | some sec => if c.inTag = false ∧ cfg.fields = true then fieldItems lower sec c else []
      | none => []) ++
    (if c.inTag = true ∧ cfg.tags = true then tagItems c else []) ++
    (if inStyleField c = true ∧ cfg.styles = true then styleItems (styleNames script) else [])
  if c.line = [] ∨ c.line.head? = some '[' then
    match sectionItems lower c with
    | .ok l => .ok (l ++ rest)
    | .err => .err
    | .panic => .panic
  else .ok rest

/-- `get_completions`, lines 49-90; `script` is what the parser makes of the text. -/
def completions (alnum : Char → Bool) (lower : Str → Str) (cfg : Config) (script : List Parser.Section) (text : Str) (offset : Nat) :
    Outcome (List Item) :=
  match context alnum text offset with
  | .ok c =>
    match gather lower cfg script c with
    | .ok l => .ok ((sortKey (fun i => i.order) l).take cfg.max)
    | .err => .err
    | .panic => .panic
  | .err => .err
  | .panic => .panic

end Verif.Complete
