import Verif.Model.StrX
import Verif.Model.Map
/-!
# Syntax highlighting — `crates/ass-editor/extensions/builtin/syntax_highlight/*`

`char::is_alphanumeric` is the parameter `alnum`.
-/
namespace Verif.Highlight
open Verif

/-- `TokenType`, types.rs lines 9-33. -/
inductive Kind where
  | header | fieldName | fieldValue | eventType | styleName | timeCode | tag | param | comment | text | error
deriving DecidableEq

/-- `HighlightToken`, types.rs lines 72-80: byte range, type and semantic information. -/
structure Tok where
  start : Nat
  stop : Nat
  kind : Kind
  info : Option Str
deriving DecidableEq

/-- `SyntaxHighlightConfig`, extension.rs lines 26-36; the other two switches are never read. -/
structure Config where
  tags : Bool
  maxTokens : Nat

/-! ## tags.rs -/

/-- `content.as_bytes()[pos] == b'\\'` with `pos` in range, line 97: a byte equal to a backslash is that character. -/
def slashAt (content : Str) (pos : Nat) : Bool :=
  match dropBytes content pos with
  | some ('\\' :: _) => true
  | _ => false

/-- The loop of lines 97-99; the first argument bounds the number of turns. -/
def skip (content : Str) : Nat → Nat → Nat
  | 0, pos => pos
  | k + 1, pos => if pos < byteLen content ∧ slashAt content pos = true then skip content k (pos + 1) else pos

/-- The tokens of one part, lines 106-132. -/
def partToks (alnum : Char → Bool) (part : Str) (pos : Nat) : List Tok :=
  let name := part.takeWhile alnum
  if name = [] then []
  else ⟨pos, pos + byteLen name, .tag, some name⟩ ::
    (if byteLen name < byteLen part then [⟨pos + byteLen name, pos + byteLen part, .param, none⟩] else [])

/-- The loop over the parts, lines 95-135. -/
def partsLoop (alnum : Char → Bool) (content : Str) (start : Nat) : Nat → List Str → List Tok
  | _, [] => []
  | pos, part :: ps =>
    let p := skip content (byteLen content) pos
    if p ≥ byteLen content then []
    else partToks alnum part (start + p) ++ partsLoop alnum content start (p + byteLen part + 1) ps

/-- `tokenize_tag_content`, lines 85-138. -/
def tagContent (alnum : Char → Bool) (content : Str) (start : Nat) : List Tok :=
  partsLoop alnum content start 0 ((splitOn '\\' content).filter (fun s => s ≠ []))

/-- `tokenize_text_with_tags`, lines 11-82, with the rest of the text and its position; the first argument bounds the number of
turns. -/
def textTags (alnum : Char → Bool) : Nat → Nat → Str → List Tok
  | 0, _, _ => []
  | _ + 1, _, [] => []
  | k + 1, pos, c :: s =>
    if c = '{' then
      match splitOnce '}' s with
      | some (content, after) =>
        ⟨pos, pos + 1, .tag, none⟩ :: tagContent alnum content (pos + 1) ++
          ⟨pos + 1 + byteLen content, pos + 1 + byteLen content + 1, .tag, none⟩ ::
          textTags alnum k (pos + 1 + byteLen content + 1) after
      | none => [⟨pos, pos + byteLen (c :: s), .error, some "Unclosed override tag".toList⟩]
    else
      let t := (c :: s).takeWhile (fun x => x != '{')
      ⟨pos, pos + byteLen t, .text, none⟩ :: textTags alnum k (pos + byteLen t) ((c :: s).dropWhile (fun x => x != '{'))

/-! ## events.rs -/

/-- Lines 39-50: the text up to the `n`-th comma, with it, and the text after it. -/
def cut : Nat → Str → Option (Str × Str)
  | 0, s => some ([], s)
  | _ + 1, [] => none
  | n + 1, c :: s => (cut (if c = ',' then n else n + 1) s).map fun p => (c :: p.1, p.2)

/-- The token of the field with the given number, lines 60-94. -/
def fieldTok (i : Nat) (f : Str) (pos : Nat) : Tok :=
  if i = 1 ∨ i = 2 then ⟨pos, pos + byteLen f, .timeCode, none⟩
  else if i = 3 then ⟨pos, pos + byteLen f, .styleName, some (trim f)⟩
  else ⟨pos, pos + byteLen f, .fieldValue, none⟩

/-- The loop of lines 57-97. -/
def fieldToks : Nat → Nat → List Str → List Tok
  | _, _, [] => []
  | i, pos, f :: l => fieldTok i f pos :: fieldToks (i + 1) (pos + byteLen f + 1) l

/-- `tokenize_event_line`, lines 11-117; `rest` is the line after the type and its colon. -/
def eventToks (alnum : Char → Bool) (c : Config) (type rest : Str) (pos : Nat) : List Tok :=
  ⟨pos, pos + byteLen type + 1, .eventType, some type⟩ ::
    (match cut 9 rest with
     | none => []
     | some (pre, text) =>
       let p := pos + byteLen type + 1
       fieldToks 0 p (splitOn ',' pre) ++
         (if c.tags then textTags alnum text.length (p + byteLen pre) text
          else [⟨p + byteLen pre, p + byteLen rest, .text, none⟩]))

/-! ## sections.rs -/

/-- `tokenize_info_line`, lines 11-43. -/
def infoToks (line : Str) (pos : Nat) : List Tok :=
  match splitOnce ':' line with
  | none => []
  | some (k, v) =>
    ⟨pos, pos + byteLen k + 1, .fieldName, some k⟩ ::
      (if trimStart v = [] then [] else [⟨pos + byteLen k + 1, pos + byteLen line, .fieldValue, none⟩])

/-- `tokenize_format_line`, lines 46-70. -/
def formatToks (line : Str) (pos : Nat) : List Tok :=
  [⟨pos, pos + 7, .fieldName, some "Format".toList⟩, ⟨pos + 7, pos + byteLen line, .fieldValue, none⟩]

/-- The token of a style field, lines 94-112. -/
def styleTok (i : Nat) (f : Str) (pos : Nat) : Tok :=
  if i = 0 then ⟨pos, pos + byteLen f, .styleName, some (trim f)⟩ else ⟨pos, pos + byteLen f, .fieldValue, none⟩

/-- The loop of lines 90-115. -/
def styleFields : Nat → Nat → List Str → List Tok
  | _, _, [] => []
  | i, pos, f :: l => styleTok i f pos :: styleFields (i + 1) (pos + byteLen f + 1) l

/-- `tokenize_style_line`, lines 73-118; `rest` is the line after `Style:`. -/
def styleToks (rest : Str) (pos : Nat) : List Tok :=
  ⟨pos, pos + 6, .fieldName, some "Style".toList⟩ :: styleFields 0 (pos + 6) (splitOn ',' (trimStart rest))

/-! ## document.rs -/

/-- `line.starts_with('[') && line.ends_with(']')`, line 31, with the text between. -/
def header (line : Str) : Option Str :=
  match line with
  | '[' :: s => if s.getLast? = some ']' then some s.dropLast else none
  | _ => none

/-- The tokens of a line in a section, lines 48-76. -/
def inSection (alnum : Char → Bool) (c : Config) (sec : Option Str) (line : Str) (pos : Nat) : List Tok :=
  match sec with
  | none => []
  | some name =>
    if name ∈ ["Script Info".toList, "Aegisub Project Garbage".toList] then infoToks line pos
    else if name ∈ ["V4+ Styles".toList, "V4 Styles".toList] then
      (if startsWith "Format:".toList line then formatToks line pos
       else match stripPrefix "Style:".toList line with
        | some rest => styleToks rest pos
        | none => [])
    else if name = "Events".toList then
      (if startsWith "Format:".toList line then formatToks line pos
       else match stripPrefix "Dialogue:".toList line with
        | some rest => eventToks alnum c "Dialogue".toList rest pos
        | none => match stripPrefix "Comment:".toList line with
          | some rest => eventToks alnum c "Comment".toList rest pos
          | none => [])
    else [⟨pos, pos + byteLen line, .text, none⟩]

/-- One line: its tokens and the section after it, lines 25-76. -/
def lineToks (alnum : Char → Bool) (c : Config) (sec : Option Str) (line : Str) (pos : Nat) : List Tok × Option Str :=
  match header line with
  | some name => ([⟨pos, pos + byteLen line, .header, some name⟩], some name)
  | none =>
    if line.head? = some ';' then ([⟨pos, pos + byteLen line, .comment, none⟩], sec)
    else (inSection alnum c sec line pos, sec)

/-- The loop over the lines, lines 24-84, with the tokens so far. -/
def docLoop (alnum : Char → Bool) (c : Config) : List Tok → Option Str → Nat → List Str → List Tok
  | acc, _, _, [] => acc
  | acc, sec, pos, line :: ls =>
    let r := lineToks alnum c sec line pos
    let acc' := acc ++ r.1
    if c.maxTokens > 0 ∧ acc'.length ≥ c.maxTokens then acc'
    else docLoop alnum c acc' r.2 (pos + byteLen line + 1) ls

/-- The tokens of a text. -/
def fresh (alnum : Char → Bool) (c : Config) (text : Str) : List Tok := docLoop alnum c [] none 0 (lines text)

/-- The cache: document ids and their tokens (`HashMap`, extension.rs line 20). -/
abbrev Cache := Map Str (List Tok)

/-- `tokenize_document`, lines 11-90. -/
def tokenizeDocument (alnum : Char → Bool) (c : Config) (cache : Cache) (id text : Str) : List Tok × Cache :=
  match cache.get id with
  | some t => (t, cache)
  | none => (fresh alnum c text, cache.insert id (fresh alnum c text))

/-- `clear_cache`, extension.rs lines 70-72. -/
def clearCache (_ : Cache) : Cache := []

/-- `invalidate_document`, extension.rs lines 75-77. -/
def invalidate (cache : Cache) (id : Str) : Cache := cache.erase id

end Verif.Highlight
