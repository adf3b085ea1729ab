import Verif.Model.Override
import Verif.Model.Formats
/-!
# Karaoke commands — `crates/ass-editor/commands/karaoke_commands/`
-/
namespace Verif.Karaoke
open Verif

/-- `"aeiouAEIOU".contains(c)`, generate.rs lines 122-123. -/
def isVowel (c : Char) : Bool := "aeiouAEIOU".toList.contains c

/-- `is_syllable_boundary`, generate.rs lines 113-128, for `pos ≥ 1`, given the character before and the one at
the position. -/
def boundary (prev curr : Char) : Bool := isVowel prev && !isVowel curr && !isWs curr

/-- The piece `chars[a..b]`. -/
def piece (chars : Str) (a b : Nat) : Str := (chars.drop a).take (b - a)

/-- `chars[i..end]` where `end` is the first position after `i` that holds no white space, lines 80-83: the end. -/
def wsEnd (chars : Str) (i : Nat) : Nat := i + 1 + ((chars.drop (i + 1)).takeWhile isWs).length

/-- Pushing a syllable unless it is blank, lines 71-76. -/
def pushSyl (chars : Str) (start i : Nat) (out : List Str) : List Str :=
  if start < i then
    if trim (piece chars start i) ≠ [] then out ++ [piece chars start i] else out
  else out

/-- Whether the loop does something at position `i`, line 70. -/
def splitsAt (chars : Str) (i : Nat) : Bool :=
  match chars[i]? with
  | none => false
  | some ch =>
    isWs ch || (match i, chars[i - 1]? with
      | 0, _ => false
      | _, some p => boundary p ch
      | _, none => false)

/-- One round of the loop, lines 68-94: state is `current_start` and the syllables. -/
def sylStep (chars : Str) (i : Nat) (st : Nat × List Str) : Nat × List Str :=
  if splitsAt chars i then
    let out := pushSyl chars st.1 i st.2
    if (chars[i]?.map isWs).getD false && decide (wsEnd chars i > i + 1) then
      (wsEnd chars i, out ++ [piece chars i (wsEnd chars i)])
    else (i, out)
  else st

/-- The loop from position `i` with `k` positions to go. -/
def sylLoop (chars : Str) : Nat → Nat → Nat × List Str → Nat × List Str
  | 0, _, st => st
  | k + 1, i, st => sylLoop chars k (i + 1) (sylStep chars i st)

/-- The remaining text, lines 97-102. -/
def sylRest (chars : Str) (st : Nat × List Str) : List Str :=
  if st.1 < chars.length then
    if trim (chars.drop st.1) ≠ [] then st.2 ++ [chars.drop st.1] else st.2
  else st.2

/-- `split_into_syllables`, lines 54-110. -/
def syllables (auto : Bool) (text : Str) : List Str :=
  if !auto then [text]
  else if text = [] then [text]
  else
    let out := sylRest text (sylLoop text text.length 0 (0, []))
    if out = [] then [text] else out

/-- `KaraokeType`, types.rs. -/
inductive Kind | standard | fill | outline | transition
deriving DecidableEq, Repr

/-- `tag_string`, types.rs lines 18-25. -/
def Kind.tag : Kind → Str
  | .standard => "k".toList
  | .fill => "kf".toList
  | .outline => "ko".toList
  | .transition => "kt".toList

/-- `format!("{{\\{tag}{duration}}}")`. -/
def tagText (tag : Str) (duration : Nat) : Str := "{\\".toList ++ tag ++ showNat duration ++ "}".toList

/-- The loop that writes the tags, generate.rs lines 145-155. -/
def writeFrom (tag : Str) (duration : Nat) : Bool → List Str → Str
  | _, [] => []
  | first, s :: l =>
    (if first || decide (trim s ≠ []) then tagText tag duration else []) ++ s ++ writeFrom tag duration false l

/-- `GenerateKaraokeCommand::execute` on the text of the range, generate.rs lines 132-155; `none` is the error. -/
def generate (kind : Kind) (duration : Nat) (auto : Bool) (text : Str) : Option Str :=
  if '{' ∈ text ∨ '}' ∈ text then none
  else some (writeFrom kind.tag duration true (syllables auto text))

/-! ## Splitting at given positions -/

/-- `&text[last..pos]` written with its tag, split.rs lines 73-77. -/
def segText (d : Nat) (seg : Str) : Str := if seg = [] then [] else tagText "k".toList d ++ seg

/-- The loop of `split_karaoke_text`, split.rs lines 66-91; `last` is the byte position reached. -/
def splitLoop (text : Str) (d : Nat) : Nat → List Nat → Outcome Str
  | last, [] =>
    if last < byteLen text then
      match dropBytes text last with
      | none => .panic
      | some seg => .ok (segText d seg)
    else .ok []
  | last, pos :: ps =>
    if pos ≤ last ∨ pos ≥ byteLen text then splitLoop text d last ps
    else
      match sliceBytes text last pos with
      | none => .panic
      | some seg =>
        match splitLoop text d pos ps with
        | .ok r => .ok (segText d seg ++ r)
        | r => r

/-- `split_karaoke_text`, split.rs lines 62-91; `unwrap_or(50)`. -/
def splitKaraoke (positions : List Nat) (duration : Option Nat) (text : Str) : Outcome Str :=
  splitLoop text (duration.getD 50) 0 positions

/-! ## Applying a template -/

/-- Skipping a block, apply_impl.rs lines 89-101: what follows it. -/
def skipBlock : Nat → Str → Str
  | _, [] => []
  | count, c :: s =>
    if c = '{' then skipBlock (count + 1) s
    else if c = '}' then if count - 1 = 0 then s else skipBlock (count - 1) s
    else skipBlock count s

/-- `extract_clean_text`, apply_impl.rs lines 84-108; `fuel = length` suffices. -/
def cleanText : Nat → Str → Str
  | _, [] => []
  | 0, _ :: _ => []
  | k + 1, c :: s => if c = '{' then cleanText k (skipBlock 1 s) else c :: cleanText k s

/-- `str::split_whitespace`: the non-empty pieces between white space; `cur` is the piece being read, reversed. -/
def wordsAux : Str → Str → List Str
  | [], [] => []
  | cur, [] => [cur.reverse]
  | cur, c :: s =>
    if isWs c then (match cur with
      | [] => wordsAux [] s
      | _ => cur.reverse :: wordsAux [] s)
    else wordsAux (c :: cur) s

/-- `split_whitespace`. -/
def words (s : Str) : List Str := wordsAux [] s

/-- The writing loop of `apply_equal_timing` and `apply_pattern_timing`, lines 132-137 and 165-171; `dur i` is the
duration of the i-th syllable. -/
def applyFrom (tag : Str) (dur : Nat → Nat) : Nat → List Str → Str
  | _, [] => []
  | i, s :: l => (if i > 0 then [' '] else []) ++ tagText tag (dur i) ++ s ++ applyFrom tag dur (i + 1) l

/-- `KaraokeTemplate` (without `Beat`, whose duration is computed in floating point and then used as in `Equal`). -/
inductive Template
  | equal (duration : Nat) (kind : Kind)
  | pattern (durations : List Nat) (kind : Kind)
  | importFrom (index : Nat)
deriving DecidableEq, Repr

/-- `apply_karaoke_template`, lines 50-81.  `i % durations.len()` panics for an empty pattern as soon as there
is a syllable. -/
def applyTemplate (t : Template) (text : Str) : Outcome Str :=
  let syls := words (cleanText text.length text)
  match t with
  | .equal d kind => .ok (applyFrom kind.tag (fun _ => d) 0 syls)
  | .pattern ds kind =>
    if ds = [] ∧ syls ≠ [] then .panic
    else .ok (applyFrom kind.tag (fun i => (ds[i % ds.length]?).getD 50) 0 syls)
  | .importFrom _ => .ok text

/-! ## Adjusting durations -/

/-- `TimingAdjustment`, adjust.rs lines 18-28.  `Scale` multiplies in floating point, truncates and takes at least
1; here it is an arbitrary function of the duration. -/
inductive Adjust
  | scale (f : Nat → Nat)
  | offset (z : Int)
  | setAll (d : Nat)
  | custom (ts : List Nat)

/-- `x as i32` for a `u32`. -/
def asI32 (n : Nat) : Int := if n < 2 ^ 31 then n else (n : Int) - 2 ^ 32

/-- The new duration and `custom_index`, adjust_impl.rs lines 132-149. -/
def newDuration (a : Adjust) (cur idx : Nat) : Outcome (Nat × Nat) :=
  match a with
  | .scale f => .ok (f cur, idx)
  | .offset z =>
    if asI32 cur + z < -(2 ^ 31) ∨ asI32 cur + z ≥ 2 ^ 31 then .panic
    else .ok ((max (asI32 cur + z) 1).toNat, idx)
  | .setAll d => .ok (d, idx)
  | .custom ts =>
    match ts[idx]? with
    | some t => .ok (t, idx + 1)
    | none => .ok (cur, idx)

/-- The loop over the tags, adjust_impl.rs lines 122-156, the tags already in reverse order. -/
def adjustTags (a : Adjust) : List Override.Tag → Nat → Str → Outcome (Str × Nat)
  | [], idx, r => .ok (r, idx)
  | t :: ts, idx, r =>
    if t.name.head? = some 'k' then
      let cur := (parseU32 (trim t.args)).getD 0
      match newDuration a cur idx with
      | .ok (d, idx') =>
        adjustTags a ts idx'
          (replaceAll ('\\' :: t.name ++ showNat cur) ('\\' :: t.name ++ showNat d) r)
      | .err => .err
      | .panic => .panic
    else adjustTags a ts idx r

/-- The content of a block and what follows it, adjust_impl.rs lines 71-81. -/
def takeBlock : Nat → Str → Str × Str
  | _, [] => ([], [])
  | count, c :: s =>
    if c = '{' then
      let (b, r) := takeBlock (count + 1) s
      (c :: b, r)
    else if c = '}' then
      if count - 1 = 0 then ([], s)
      else
        let (b, r) := takeBlock (count - 1) s
        (c :: b, r)
    else
      let (b, r) := takeBlock count s
      (c :: b, r)

/-- Text in front of a result. -/
def before (t : Str) : Outcome Str → Outcome Str
  | .ok r => .ok (t ++ r)
  | r => r

/-- The loop of `adjust_karaoke_timing`, adjust_impl.rs lines 61-110; `fuel = length` suffices.  The registry parser
pushes the same tags as `parse_override_block`, whether a handler accepts the arguments (lines 88-99 of
registry_parser.rs), refuses them (lines 100-107, then 116-132) or does not exist. -/
def adjustLoop (a : Adjust) : Nat → Nat → Str → Outcome Str
  | _, _, [] => .ok []
  | 0, _, _ :: _ => .ok []
  | k + 1, idx, c :: s =>
    if c = '{' then
      let (content, r) := takeBlock 1 s
      match Override.parseBlock content 0 with
      | .ok o =>
        match adjustTags a o.tags.reverse idx content with
        | .ok (content', idx') => before ('{' :: content' ++ ['}']) (adjustLoop a k idx' r)
        | .err => .err
        | .panic => .panic
      | .err => .err
      | .panic => .panic
    else before [c] (adjustLoop a k idx s)

/-- `adjust_karaoke_timing`. -/
def adjust (a : Adjust) (text : Str) : Outcome Str := adjustLoop a text.length 0 text

end Verif.Karaoke
