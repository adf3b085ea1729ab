import Verif.Model.Override
import Verif.Model.Doc
/-!
# Commands on override tags — `crates/ass-editor/commands/tag_commands/{insert,remove,replace,wrap,parse}.rs`
-/
namespace Verif.TagCmd
open Verif
open Verif.Override (Tag parseBlock)

/-- The inner loop over a block, remove.rs lines 83-96 (the same in replace.rs lines 81-101 and parse.rs lines 79-93): the content
read, whether the block was closed, and the rest; `d` is `brace_count`, taken to be unbounded. -/
def readBlock : Nat → Str → Str × Bool × Str
  | _, [] => ([], false, [])
  | d, c :: s =>
    if c = '{' then
      let r := readBlock (d + 1) s
      (c :: r.1, r.2)
    else if c = '}' then
      if d - 1 = 0 then ([], true, s)
      else
        let r := readBlock (d - 1) s
        (c :: r.1, r.2)
    else
      let r := readBlock d s
      (c :: r.1, r.2)

/-- `&pattern[1..]`; `none`: panic. -/
def pastFirst (p : Str) : Option Str := dropBytes p 1

/-- A tag written back, remove.rs lines 140-142, replace.rs line 131. -/
def write (t : Tag) : Str := '\\' :: t.name ++ t.args

/-- The loop over the tags, remove.rs lines 130-143. -/
def keepTags (p : Str) : List Tag → Outcome Str
  | [] => .ok []
  | t :: l => match pastFirst p with
    | none => .panic
    | some q => match keepTags p l with
      | .ok r => .ok (if q.isPrefixOf t.name then r else write t ++ r)
      | o => o

/-- `process_override_content`, remove.rs lines 116-150. -/
def cleanBlock (pattern : Option Str) (content : Str) : Outcome Str :=
  match pattern with
  | none => .ok []
  | some p => match parseBlock content 0 with
    | .ok o => keepTags p o.tags
    | .err => .err
    | .panic => .panic

/-- Text in front of a result. -/
def before (t : Str) : Outcome Str → Outcome Str
  | .ok r => .ok (t ++ r)
  | o => o

/-- `remove_tags_from_text`, remove.rs lines 76-113; every round consumes a character, so `fuel = length` suffices. -/
def removeLoop (pattern : Option Str) (clean : Bool) : Nat → Str → Outcome Str
  | _, [] => .ok []
  | 0, _ :: _ => .ok []
  | k + 1, c :: s =>
    if c = '{' then
      match cleanBlock pattern (readBlock 1 s).1 with
      | .ok x => before (if x ≠ [] ∨ clean = false then '{' :: x ++ ['}'] else []) (removeLoop pattern clean k (readBlock 1 s).2.2)
      | o => o
    else before [c] (removeLoop pattern clean k s)

/-- `remove_tags_from_text`. -/
def removeText (pattern : Option Str) (clean : Bool) (text : Str) : Outcome Str := removeLoop pattern clean text.length text

/-- The loop over the tags, replace.rs lines 129-146: the text and the number of replacements. -/
def swapTags (find repl : Str) (all : Bool) : Nat → List Tag → Str × Nat
  | n, [] => ([], n)
  | n, t :: l =>
    if find.isPrefixOf (write t) ∧ (all = true ∨ n = 0) then
      let r := swapTags find repl all (n + 1) l
      (repl ++ (write t).drop find.length ++ r.1, r.2)
    else
      let r := swapTags find repl all n l
      (write t ++ r.1, r.2)

/-- `process_override_for_replacement`, replace.rs lines 111-149. -/
def swapBlock (find repl : Str) (all : Bool) (n : Nat) (content : Str) : Outcome (Str × Nat) :=
  if all = false ∧ n > 0 then .ok (content, n)
  else match parseBlock content 0 with
    | .ok o => .ok (swapTags find repl all n o.tags)
    | .err => .err
    | .panic => .panic

/-- `replace_tags_in_text`, replace.rs lines 72-108; `fuel = length` suffices. -/
def replaceLoop (find repl : Str) (all : Bool) : Nat → Nat → Str → Outcome Str
  | _, _, [] => .ok []
  | 0, _, _ :: _ => .ok []
  | k + 1, n, c :: s =>
    if c = '{' then
      if (readBlock 1 s).2.1 then
        match swapBlock find repl all n (readBlock 1 s).1 with
        | .ok x => before ('{' :: x.1 ++ ['}']) (replaceLoop find repl all k x.2 (readBlock 1 s).2.2)
        | .err => .err
        | .panic => .panic
      else .ok ['{']
    else before [c] (replaceLoop find repl all k n s)

/-- `replace_tags_in_text`. -/
def replaceText (find repl : Str) (all : Bool) (text : Str) : Outcome Str := replaceLoop find repl all text.length 0 text

/-- `ParsedTag`, parse.rs lines 43-51, with its position. -/
structure Parsed where
  tag : Str
  pos : Nat
  params : List Str
deriving DecidableEq, Repr

/-- A tag as it is reported, parse.rs lines 120-152; `base` is `self.range.start.offset + base_position`. -/
def report (base : Nat) (t : Tag) : Parsed :=
  if t.args.head? = some '(' ∧ t.args.getLast? = some ')' then
    ⟨'\\' :: t.name, base + t.pos, if (t.args.drop 1).dropLast = [] then [] else (splitOn ',' (t.args.drop 1).dropLast).map trim⟩
  else ⟨write t, base + t.pos, []⟩

/-- `parse_tags_from_text`, parse.rs lines 72-103, at character number `pos`; `start` is the start of the range. -/
def parseLoop (start : Nat) : Nat → Nat → Str → Outcome (List Parsed)
  | _, _, [] => .ok []
  | 0, _, _ :: _ => .ok []
  | k + 1, pos, c :: s =>
    if c = '{' then
      match parseBlock (readBlock 1 s).1 0 with
      | .ok o =>
        match parseLoop start k (pos + 1 + (readBlock 1 s).1.length + (if (readBlock 1 s).2.1 then 1 else 0)) (readBlock 1 s).2.2 with
        | .ok r => .ok (o.tags.map (report (start + pos)) ++ r)
        | x => x
      | .err => .err
      | .panic => .panic
    else parseLoop start k (pos + 1) s

/-- `parse_tags_from_text`. -/
def parseTags (start : Nat) (text : Str) : Outcome (List Parsed) := parseLoop start text.length 0 text

/-- `format_tag`, insert.rs lines 44-65. -/
def formatTag (tag : Str) (auto : Bool) : Outcome Str :=
  if (trim tag).head? ≠ some '\\' then .err
  else if (trim tag).head? = some '{' ∧ (trim tag).getLast? = some '}' then .ok (trim tag)
  else if auto then .ok ('{' :: trim tag ++ ['}'])
  else .ok (trim tag)

/-- `InsertTagCommand::execute`, insert.rs lines 69-77: the outcome with the end of the changed range, and the text. -/
def insertTag (s : Str) (pos : Nat) (tag : Str) (auto : Bool) : Outcome Nat × Str :=
  match formatTag tag auto with
  | .ok f => match Doc.insertRaw s pos f with
    | (.ok _, s') => (.ok (pos + byteLen f), s')
    | (.err, s') => (.err, s')
    | (.panic, s') => (.panic, s')
  | .err => (.err, s)
  | .panic => (.panic, s)

/-- A command that rewrites the text of a range, remove.rs lines 50-60 and replace.rs lines 49-59. -/
def rewrite (f : Str → Outcome Str) (s : Str) (r : Pos.Range) : Outcome Nat × Str :=
  match Doc.textRange s r with
  | .ok old => match f old with
    | .ok new => match Doc.replaceRaw s r new with
      | (.ok _, s') => (.ok (r.start + byteLen new), s')
      | (.err, s') => (.err, s')
      | (.panic, s') => (.panic, s')
    | .err => (.err, s)
    | .panic => (.panic, s)
  | .err => (.err, s)
  | .panic => (.panic, s)

/-- `get_closing_tag`, wrap.rs lines 54-75. -/
def closingTag (closing : Option Str) (opening : Str) : Str :=
  match closing with
  | some c => c
  | none =>
    let tag := opening.dropWhile (· = '\\')
    if tag.head? = some 'b' then "\\b0".toList
    else if tag.head? = some 'i' then "\\i0".toList
    else if tag.head? = some 'u' then "\\u0".toList
    else if tag.head? = some 's' then "\\s0".toList
    else if "c&".toList.isPrefixOf tag ∨ "1c&".toList.isPrefixOf tag then "\\c".toList
    else "\\r".toList

/-- `WrapTagCommand::execute`, wrap.rs lines 79-97; the first insertion stays when the second fails. -/
def wrapTag (s : Str) (r : Pos.Range) (opening : Str) (closing : Option Str) : Outcome Nat × Str :=
  let c := '{' :: closingTag closing opening ++ ['}']
  let o := '{' :: opening ++ ['}']
  match Doc.insertRaw s r.fin c with
  | (.ok _, s1) => match Doc.insertRaw s1 r.start o with
    | (.ok _, s2) => (.ok (r.start + (byteLen o + (r.fin - r.start) + byteLen c)), s2)
    | (.err, s2) => (.err, s2)
    | (.panic, s2) => (.panic, s2)
  | (.err, s1) => (.err, s1)
  | (.panic, s1) => (.panic, s1)

end Verif.TagCmd
