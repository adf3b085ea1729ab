import Verif.Model.StrX
import Verif.Model.Outcome
/-!
# Override blocks and dialogue text — `crates/ass-core/analysis/events/tags/parser.rs`,
`crates/ass-core/analysis/events/text_analysis/{parser,helpers}.rs`
-/
namespace Verif.Override
open Verif

/-- `char::is_ascii_alphabetic`. -/
def isAlpha (c : Char) : Bool := ('a' ≤ c && c ≤ 'z') || ('A' ≤ c && c ≤ 'Z')

/-- `char::is_ascii_digit`. -/
def isDig (c : Char) : Bool := '0' ≤ c && c ≤ '9'

/-- `scan_tag_name`, parser.rs lines 40-67: the name and the rest; `acc` is the name so far.  Names consist
of one-byte characters, so byte and character positions advance together. -/
def scanName (acc : Str) : Str → Str × Str
  | [] => (acc, [])
  | c :: s =>
    if acc = [] && isDig c then scanName [c] s
    else if isAlpha c then
      if acc ++ [c] = "r".toList ∨ acc ++ [c] = "fn".toList then (acc ++ [c], s) else scanName (acc ++ [c]) s
    else (acc, c :: s)

/-- The arguments of `\t(`, lines 98-112: up to the matching parenthesis, or to the end. -/
def scanParen (depth : Int) : Str → Str × Str
  | [] => ([], [])
  | c :: s =>
    if c = '(' then
      let (a, r) := scanParen (depth + 1) s
      (c :: a, r)
    else if c = ')' then
      if depth - 1 = 0 then ([c], s)
      else
        let (a, r) := scanParen (depth - 1) s
        (c :: a, r)
    else
      let (a, r) := scanParen depth s
      (c :: a, r)

/-- The arguments of a tag, lines 93-119. -/
def scanArgs (name s : Str) : Str × Str :=
  match s with
  | '(' :: _ => if name = "t".toList then scanParen 0 s else (s.takeWhile (· ≠ '\\'), s.dropWhile (· ≠ '\\'))
  | _ => (s.takeWhile (· ≠ '\\'), s.dropWhile (· ≠ '\\'))

/-- `OverrideTag` without its complexity. -/
structure Tag where
  name : Str
  args : Str
  pos : Nat
deriving DecidableEq, Repr

/-- `TagDiagnostic` (the kind is always `EmptyOverride`). -/
structure Diag where
  span : Str
  offset : Nat
deriving DecidableEq, Repr

/-- What the parser has pushed. -/
structure Out where
  tags : List Tag
  diags : List Diag
deriving DecidableEq, Repr

/-- Pushing a tag in front of what follows. -/
def addTag (t : Tag) : Outcome Out → Outcome Out
  | .ok o => .ok { o with tags := t :: o.tags }
  | r => r

/-- Pushing a diagnostic in front of what follows. -/
def addDiag (d : Diag) : Outcome Out → Outcome Out
  | .ok o => .ok { o with diags := d :: o.diags }
  | r => r

/-- `&content[tag_start..span_end]`, lines 141-143: a backslash and one more byte; `none` is a panic. -/
def emptySpan (rest : Str) : Option Str := takeBytes ('\\' :: rest) (min 2 (byteLen ('\\' :: rest)))

/-- The loop of `parse_override_block`, lines 79-156, from byte position `pos` (`start_pos` included);
every round consumes a character, so `fuel = length` suffices. -/
def blockLoop : Nat → Nat → Str → Outcome Out
  | _, _, [] => .ok ⟨[], []⟩
  | 0, _, _ :: _ => .ok ⟨[], []⟩
  | k + 1, pos, c :: s =>
    if c = '\\' then
      let (name, r) := scanName [] s
      if name ≠ [] then
        let (args, r2) := scanArgs name r
        let next := blockLoop k (pos + 1 + byteLen name + byteLen args) r2
        if trim name = [] then addDiag ⟨'\\' :: name ++ args, pos⟩ next
        else addTag ⟨name, args, pos⟩ next
      else
        match emptySpan s with
        | none => .panic
        | some sp =>
          addDiag ⟨sp, pos⟩ (match r with
            | [] => .ok ⟨[], []⟩
            | d :: r' => blockLoop k (pos + 1 + d.utf8Size) r')
    else blockLoop k (pos + c.utf8Size) s

/-- `parse_override_block`, lines 69-157. -/
def parseBlock (content : Str) (start : Nat) : Outcome Out := blockLoop content.length start content

/-! ## Dialogue text -/

/-- `str::parse::<i32>` on digits and dashes. -/
def parseI32 (s : Str) : Option Int :=
  match s with
  | '-' :: t => match t with
    | [] => none
    | _ => match digitsVal 10 0 t with
      | some v => if v ≤ 2 ^ 31 then some (-(v : Int)) else none
      | none => none
  | t => match parseUnsigned 10 (2 ^ 31) t with
    | some v => some (v : Int)
    | none => none

/-- A new drawing mode, helpers.rs lines 70-72. -/
def setMode (num : Str) (mode : Bool) : Bool :=
  match parseI32 num with
  | some v => decide (v > 0)
  | none => mode

/-- `update_drawing_mode`, helpers.rs lines 55-79; `fuel = length` suffices. -/
def drawLoop : Nat → Str → Bool → Bool
  | 0, _, mode => mode
  | _ + 1, [], mode => mode
  | k + 1, c :: s, mode =>
    match stripPrefix "\\p".toList (c :: s) with
    | some r =>
      drawLoop k (r.dropWhile (fun d => isDig d || d == '-'))
        (setMode (r.takeWhile (fun d => isDig d || d == '-')) mode)
    | none => drawLoop k s mode

/-- `update_drawing_mode`. -/
def drawMode (content : Str) (mode : Bool) : Bool := drawLoop content.length content mode

/-- The inner loop over a block, parser.rs lines 42-57: consumes the text after `{`, returns the content
read (without the closing brace), whether it was closed, and the rest; `err` when nested deeper than 100. -/
def scanBlock (count : Nat) : Str → Outcome (Str × Bool × Str)
  | [] => .ok ([], false, [])
  | c :: s =>
    if c = '{' then
      if count + 1 > 100 then .err
      else match scanBlock (count + 1) s with
        | .ok (b, cl, r) => .ok (c :: b, cl, r)
        | r => r
    else if c = '}' then
      if count - 1 = 0 then .ok ([], true, s)
      else match scanBlock (count - 1) s with
        | .ok (b, cl, r) => .ok (c :: b, cl, r)
        | r => r
    else match scanBlock count s with
      | .ok (b, cl, r) => .ok (c :: b, cl, r)
      | r => r

/-- Result of the analysis: plain text, tags and diagnostics. -/
structure Analysis where
  plain : Str
  tags : List Tag
  diags : List Diag
deriving DecidableEq, Repr

/-- Putting text in front. -/
def prependText (t : Str) : Outcome Analysis → Outcome Analysis
  | .ok a => .ok { a with plain := t ++ a.plain }
  | r => r

/-- Putting the findings of a block in front. -/
def prependOut (o : Out) : Outcome Analysis → Outcome Analysis
  | .ok a => .ok { a with tags := o.tags ++ a.tags, diags := o.diags ++ a.diags }
  | r => r

/-- The content handed on, lines 59-60: `&text[tag_start..position]`.  For a closed block this is the
content; for an unclosed one `position` is one byte too small, so the last byte is missing (`none`: it is
not on a character boundary, a panic). -/
def blockSlice (content : Str) (closed : Bool) : Option Str :=
  if closed then some content else takeBytes content (byteLen content - 1)

/-- The escapes, lines 100-117. -/
def escapeText (c : Char) : Str :=
  if c = 'n' ∨ c = 'N' then ['\n'] else if c = 'h' then ['\u00A0'] else ['\\', c]

/-- The loop of `analyze_impl_with_registry`, lines 37-124, at byte `pos` with the drawing mode; every round
consumes a character, so `fuel = length` suffices. -/
def textLoop : Nat → Nat → Bool → Str → Outcome Analysis
  | _, _, _, [] => .ok ⟨[], [], []⟩
  | 0, _, _, _ :: _ => .ok ⟨[], [], []⟩
  | k + 1, pos, mode, c :: s =>
    if c = '{' then
      match scanBlock 1 s with
      | .err => .err
      | .panic => .panic
      | .ok (content, closed, r) =>
        let next (m : Bool) : Outcome Analysis :=
          textLoop k (pos + 1 + byteLen content + (if closed then 1 else 0)) m r
        -- `position > tag_start`
        if byteLen content + (if closed then 1 else 0) > 1 then
          match blockSlice content closed with
          | none => .panic
          | some tc =>
            match parseBlock tc (pos + 1) with
            | .ok o => prependOut o (next (drawMode tc mode))
            | .err => .err
            | .panic => .panic
        else
          -- `&text[tag_start..position.max(tag_start + 1)]` is one byte after the brace
          match takeBytes s 1 with
          | none => .panic
          | some sp => prependOut ⟨[], [⟨sp, pos + 1⟩]⟩ (next mode)
    else if c = '\\' then
      match s with
      | [] => .ok ⟨[], [], []⟩
      | d :: s' => prependText (if mode then [] else escapeText d) (textLoop k (pos + 1 + d.utf8Size) mode s')
    else prependText (if mode then [] else [c]) (textLoop k (pos + c.utf8Size) mode s)

/-- `TextAnalysis::analyze` without a registry. -/
def analyze (text : Str) : Outcome Analysis := textLoop text.length 0 false text

end Verif.Override
