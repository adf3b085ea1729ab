import Verif.Model.Override
import Verif.Model.Transform
import Verif.Model.Map
/-!
# Styled segments of a dialogue text — `crates/ass-renderer/src/pipeline/text_segmenter/{mod,split,apply}.rs`,
`crates/ass-renderer/src/pipeline/tag_processor/{parse,types}.rs`

`f32` numbers are exact rationals and the parser of `f32` is a parameter.
-/
namespace Verif.Segment
open Verif
open Verif.Color (Rgba parseBgrColor)
open Verif.Transform (Animation trimStartStr trimEndChar)
open Verif.Override (isAlpha isDig)

/-! ## Splitting a block -/

/-- The loop of `split_tags_carefully`, split.rs lines 15-41, with the part read so far and the depth. -/
def splitLoop : Int → Str → Str → List Str
  | _, cur, [] => if cur = [] then [] else [cur]
  | d, cur, c :: s =>
    if c = '\\' ∧ d = 0 then
      if cur ≠ [] then cur :: splitLoop d [] s else splitLoop d [] s
    else if c = '(' then splitLoop (d + 1) (cur ++ [c]) s
    else if c = ')' then
      if d - 1 = 0 ∧ cur ++ [c] ≠ [] ∧ s.head? = some '\\' then (cur ++ [c]) :: splitLoop (d - 1) [] s
      else splitLoop (d - 1) (cur ++ [c]) s
    else splitLoop d (cur ++ [c]) s

/-- `split_tags_carefully`, split.rs lines 9-48. -/
def splitTags (content : Str) : List Str := splitLoop 0 [] content

/-- `extract_tag_name_and_args`, split.rs lines 51-75; `panic` when byte 2 is inside a character. -/
def extract (part : Str) : Outcome (Str × Str) :=
  match stripPrefix "fn".toList part with
  | some (c :: r) => .ok ("fn".toList, c :: r)
  | _ =>
    match part with
    | [] => .ok ([], [])
    | d :: s =>
      if isDig d then
        if byteLen (d :: s) ≥ 2 then
          match takeBytes (d :: s) 2 with
          | some n => .ok (n, (d :: s).drop n.length)
          | none => .panic
        else .ok (d :: s, [])
      else .ok ((d :: s).takeWhile isAlpha, (d :: s).dropWhile isAlpha)

/-! ## Arguments -/

/-- `trim_start_matches('(').trim_end_matches(')')`, parse.rs lines 11, 26, 97 and 120. -/
def unparen (args : Str) : Str := trimEndChar ')' (args.dropWhile (· == '('))

/-- The parts between the commas. -/
def parts (args : Str) : List Str := splitOn ',' (unparen args)

/-- `parse_pos_args`, parse.rs lines 10-22. -/
def parsePos (f32 : Str → Option Rat) (args : Str) : Option (Rat × Rat) :=
  match parts args with
  | [a, b] => match f32 (trim a), f32 (trim b) with
    | some x, some y => some (x, y)
    | _, _ => none
  | _ => none

/-- A time in milliseconds, 0 if it is missing or is not a number, lines 36-46. -/
def timeOr0 : Option Str → Nat
  | some s => (parseU32 (trim s)).getD 0
  | none => 0

/-- The data of `\move`: two points, begin and end in centiseconds. -/
structure Move where
  x1 : Rat
  y1 : Rat
  x2 : Rat
  y2 : Rat
  t1 : Nat
  t2 : Nat
deriving DecidableEq

/-- `parse_move_args`, parse.rs lines 25-56. -/
def parseMove (f32 : Str → Option Rat) (args : Str) : Option Move :=
  match parts args with
  | a :: b :: c :: d :: rest =>
    match f32 (trim a), f32 (trim b), f32 (trim c), f32 (trim d) with
    | some x1, some y1, some x2, some y2 => some ⟨x1, y1, x2, y2, timeOr0 rest[0]? / 10, timeOr0 rest[1]? / 10⟩
    | _, _, _, _ => none
  | _ => none

/-- `ClipData`, types.rs lines 113-119. -/
structure Clip where
  x1 : Rat
  y1 : Rat
  x2 : Rat
  y2 : Rat
  inverse : Bool
deriving DecidableEq

/-- `parse_clip_args`, parse.rs lines 96-116, with `inverse` set as in apply.rs lines 134-139. -/
def parseClip (f32 : Str → Option Rat) (inverse : Bool) (args : Str) : Option Clip :=
  match parts args with
  | [a, b, c, d] =>
    match f32 (trim a), f32 (trim b), f32 (trim c), f32 (trim d) with
    | some x1, some y1, some x2, some y2 => some ⟨x1, y1, x2, y2, inverse⟩
    | _, _, _, _ => none
  | _ => none

/-- `FadeData`, types.rs lines 122-131. -/
structure Fade where
  alpha_start : Nat
  alpha_end : Nat
  time_start : Nat
  time_end : Nat
  alpha_middle : Option Nat
  time_fade_in : Option Nat
  time_fade_out : Option Nat
deriving DecidableEq

/-- `str::parse::<u8>`. -/
def parseU8 (s : Str) : Option Nat := parseUnsigned 10 256 s

/-- The seven numbers of the long form, lines 155-179; `panic` when `t2 - t1` or `t4 - t3` is negative (an overflow check
is on in debug builds; without it the difference wraps around). -/
def longFade (a1 a2 a3 t1 t2 t3 t4 : Nat) : Outcome (Option Fade) :=
  if t2 / 10 < t1 / 10 ∨ t4 / 10 < t3 / 10 then .panic
  else .ok (some ⟨a1, a3, t1 / 10, t4 / 10, some a2, some (t2 / 10 - t1 / 10), some (t4 / 10 - t3 / 10)⟩)

/-- `parse_fade_args`, parse.rs lines 119-184. -/
def parseFade (args : Str) : Outcome (Option Fade) :=
  match parts args with
  | [a, b] => match parseU32 (trim a), parseU32 (trim b) with
    | some i, some o => .ok (some ⟨0, 0, i / 10, o / 10, none, none, none⟩)
    | _, _ => .ok none
  | a :: b :: c :: d :: e :: f :: g :: _ =>
    match parseU8 (trim a), parseU8 (trim b), parseU8 (trim c) with
    | some a1, some a2, some a3 =>
      match parseU32 (trim d), parseU32 (trim e), parseU32 (trim f), parseU32 (trim g) with
      | some t1, some t2, some t3, some t4 => longFade a1 a2 a3 t1 t2 t3 t4
      | _, _, _, _ => .ok none
    | _, _, _ => .ok none
  | _ => .ok none

/-- `strip_to_ampersand_hex`, parse.rs lines 65-73. -/
def toAmpHex (args : Str) : Str :=
  let rec go : Str → Option Str
    | '&' :: h :: s => if h = 'h' ∨ h = 'H' then some ('&' :: h :: s) else go (h :: s)
    | _ :: s => go s
    | [] => none
  (go args).getD args

/-- `parse_color`, parse.rs lines 76-79. -/
def parseColor (args : Str) : Option Rgba := parseBgrColor (toAmpHex args)

/-- `parse_alpha`, parse.rs lines 82-92. -/
def parseAlpha (args : Str) : Option Nat :=
  let s := toAmpHex args
  let hex := trimEndChar '&' (trimStartStr "&h".toList s.length (trimStartStr "&H".toList s.length s))
  (parseUnsigned 16 256 hex).map (fun a => 255 - a)

/-! ## The tags in force -/

/-- The fields of `ProcessedTags`, `ColorOverrides`, `FontOverrides` and `FormattingOverrides` that the segmenter sets
(types.rs lines 10-105), apart from `transforms`. -/
inductive Field where
  | position | movement | origin | primary | secondary | outline | shadow | alpha | alpha1 | alpha2 | alpha3 | alpha4
  | fontName | size | scaleX | scaleY | spacing | rotationX | rotationY | rotationZ
  | bold | italic | underline | strikeout | border | borderX | borderY | shadowDepth | shadowX | shadowY
  | blur | blurEdges | alignment | wrapStyle | drawing | clip | fade | karaoke | shearX | shearY
deriving DecidableEq

/-- `KaraokeStyle`, types.rs lines 146-155. -/
inductive KaraokeStyle where
  | basic | fill | outline | sweep
deriving DecidableEq

/-- A value of a field. -/
inductive Val where
  | number (v : Rat)
  | byte (n : Nat)
  | color (c : Rgba)
  | flag (b : Bool)
  | text (s : Str)
  | point (x y : Rat)
  | move (m : Move)
  | clip (c : Clip)
  | fade (f : Fade)
  | karaoke (duration : Nat) (style : KaraokeStyle)
deriving DecidableEq

/-- `ProcessedTags`: the fields that are `Some`, and the transforms. -/
structure Tags where
  vals : Map Field Val
  transforms : List Animation
deriving DecidableEq

/-- `ProcessedTags::default()`. -/
def Tags.default : Tags := ⟨[], []⟩

/-- Setting a field if the argument was understood. -/
def Tags.setOpt (t : Tags) (f : Field) : Option Val → Tags
  | some v => { t with vals := t.vals.insert f v }
  | none => t

/-- The tags whose argument is an `f32`, apply.rs lines 90-204. -/
def numberTag (name : Str) : Option Field :=
  if name = "fs".toList then some .size
  else if name = "fscx".toList then some .scaleX
  else if name = "fscy".toList then some .scaleY
  else if name = "fsp".toList then some .spacing
  else if name = "blur".toList then some .blur
  else if name = "be".toList then some .blurEdges
  else if name = "fax".toList then some .shearX
  else if name = "fay".toList then some .shearY
  else if name = "frz".toList ∨ name = "fr".toList then some .rotationZ
  else if name = "frx".toList then some .rotationX
  else if name = "fry".toList then some .rotationY
  else if name = "bord".toList then some .border
  else if name = "xbord".toList then some .borderX
  else if name = "ybord".toList then some .borderY
  else if name = "shad".toList then some .shadowDepth
  else if name = "xshad".toList then some .shadowX
  else if name = "yshad".toList then some .shadowY
  else none

/-- The colour tags, apply.rs lines 35-54. -/
def colorTag (name : Str) : Option Field :=
  if name = "c".toList ∨ name = "1c".toList then some .primary
  else if name = "2c".toList then some .secondary
  else if name = "3c".toList then some .outline
  else if name = "4c".toList then some .shadow
  else none

/-- The transparency tags, apply.rs lines 55-79. -/
def alphaTag (name : Str) : Option Field :=
  if name = "alpha".toList then some .alpha
  else if name = "1a".toList then some .alpha1
  else if name = "2a".toList then some .alpha2
  else if name = "3a".toList then some .alpha3
  else if name = "4a".toList then some .alpha4
  else none

/-- The on/off tags, apply.rs lines 95-106. -/
def flagTag (name : Str) : Option Field :=
  if name = "b".toList then some .bold
  else if name = "i".toList then some .italic
  else if name = "u".toList then some .underline
  else if name = "s".toList then some .strikeout
  else none

/-- The tags whose argument is a `u8`, apply.rs lines 206-210, 217-221 and 244-248. -/
def byteTag (name : Str) : Option Field :=
  if name = "q".toList then some .wrapStyle
  else if name = "a".toList ∨ name = "an".toList then some .alignment
  else if name = "p".toList then some .drawing
  else none

/-- The karaoke tags, apply.rs lines 259-294. -/
def karaokeTag (name : Str) : Option KaraokeStyle :=
  if name = "k".toList then some .basic
  else if name = "kf".toList then some .fill
  else if name = "ko".toList then some .outline
  else if name = "K".toList then some .sweep
  else none

/-- The remaining tags, apply.rs lines 82-89, 134-139, 150-154, 212-214, 224-241 and 251-256. -/
def otherTag (f32 : Str → Option Rat) (name args : Str) (t : Tags) : Outcome Tags :=
  if name = "fn".toList then
    .ok (if args = [] then { t with vals := t.vals.erase .fontName } else t.setOpt .fontName (some (.text args)))
  else if name = "clip".toList ∨ name = "iclip".toList then
    .ok (t.setOpt .clip ((parseClip f32 (decide (name = "iclip".toList)) args).map .clip))
  else if name = "org".toList then .ok (t.setOpt .origin ((parsePos f32 args).map (fun p => .point p.1 p.2)))
  else if name = "r".toList then .ok Tags.default
  else if name = "pos".toList then .ok (t.setOpt .position ((parsePos f32 args).map (fun p => .point p.1 p.2)))
  else if name = "move".toList then .ok (t.setOpt .movement ((parseMove f32 args).map .move))
  else if name = "fad".toList ∨ name = "fade".toList then
    match parseFade args with
    | .ok o => .ok (t.setOpt .fade (o.map .fade))
    | .err => .err
    | .panic => .panic
  else if name = "t".toList then
    .ok (match Transform.parse f32 args with
      | some a => { t with transforms := t.transforms ++ [a] }
      | none => t)
  else .ok t

/-- One tag, apply.rs lines 33-299. -/
def applyTag (f32 : Str → Option Rat) (name args : Str) (t : Tags) : Outcome Tags :=
  match colorTag name, alphaTag name, numberTag name, flagTag name, byteTag name, karaokeTag name with
  | some f, _, _, _, _, _ => .ok (t.setOpt f ((parseColor args).map .color))
  | _, some f, _, _, _, _ => .ok (t.setOpt f ((parseAlpha args).map .byte))
  | _, _, some f, _, _, _ => .ok (t.setOpt f ((f32 args).map .number))
  | _, _, _, some f, _, _ => .ok (t.setOpt f (some (.flag (decide (args ≠ "0".toList)))))
  | _, _, _, _, some f, _ => .ok (t.setOpt f ((parseU8 args).map .byte))
  | _, _, _, _, _, some k => .ok (t.setOpt .karaoke ((parseU32 args).map (fun d => .karaoke d k)))
  | none, none, none, none, none, none => otherTag f32 name args t

/-- The loop over the parts, apply.rs lines 25-300. -/
def applyParts (f32 : Str → Option Rat) : List Str → Tags → Outcome Tags
  | [], t => .ok t
  | p :: ps, t =>
    match extract p with
    | .ok (name, args) =>
      match applyTag f32 name args t with
      | .ok t' => applyParts f32 ps t'
      | r => r
    | .err => .err
    | .panic => .panic

/-- `process_tag_block`, apply.rs lines 18-303. -/
def processBlock (f32 : Str → Option Rat) (content : Str) (t : Tags) : Outcome Tags := applyParts f32 (splitTags content) t

/-! ## Segments -/

/-- `TextSegment`, mod.rs lines 26-35. -/
structure Seg where
  text : Str
  start : Nat
  stop : Nat
  tags : Tags
deriving DecidableEq

/-- The characters of a block up to its closing brace, mod.rs lines 76-119: the content and what follows; `none` if the
block is not closed. -/
def readBlock (depth : Nat) : Str → Option (Str × Str)
  | [] => none
  | c :: s =>
    if c = '{' then (readBlock (depth + 1) s).map (fun p => (c :: p.1, p.2))
    else if c = '}' then
      if depth - 1 = 0 then some ([], s) else (readBlock (depth - 1) s).map (fun p => (c :: p.1, p.2))
    else (readBlock depth s).map (fun p => (c :: p.1, p.2))

/-- Saving the text read so far as a segment, mod.rs lines 79-89. -/
def flush (segs : List Seg) (cur : Str) (last pos : Nat) (t : Tags) : List Seg :=
  if cur ≠ [] then segs ++ [⟨cur, last, pos, t⟩] else segs

/-- The loop of `segment_text_with_tags`, mod.rs lines 75-153: at byte `pos`, with the segments so far, the text read since,
its position and the tags in force.  Every round consumes a character.  The check for karaoke tags, lines 103-114, is left
out: at that point the text read so far is always empty, since the opening brace has just saved it. -/
def segLoop (f32 : Str → Option Rat) (total : Nat) : Nat → List Seg → Str → Nat → Nat → Tags → Str → Outcome (List Seg)
  | _, segs, cur, last, _, t, [] => .ok (if cur ≠ [] ∨ segs = [] then segs ++ [⟨cur, last, total, t⟩] else segs)
  | 0, segs, _, _, _, _, _ :: _ => .ok segs
  | k + 1, segs, cur, last, pos, t, c :: s =>
    if c = '{' then
      let segs' := flush segs cur last pos t
      let last' := if cur ≠ [] then pos else last
      match readBlock 1 s with
      | none => .ok (if segs' = [] then segs' ++ [⟨[], last', total, t⟩] else segs')
      | some (content, r) =>
        match processBlock f32 content t with
        | .ok t' => segLoop f32 total k segs' [] (pos + 1 + byteLen content + 1) (pos + 1 + byteLen content + 1) t' r
        | .err => .err
        | .panic => .panic
    else if c = '\\' then
      match s with
      | [] => segLoop f32 total k segs (cur ++ ['\\']) last (pos + 1) t []
      | d :: s' =>
        segLoop f32 total k segs
          (cur ++ (if d = 'N' ∨ d = 'n' then ['\n'] else if d = 'h' then ['\u00A0'] else ['\\', d])) last
          (pos + 1 + d.utf8Size) t s'
    else segLoop f32 total k segs (cur ++ [c]) last (pos + c.utf8Size) t s

/-- `segment_text_with_tags`, mod.rs lines 38-156. -/
def segment (f32 : Str → Option Rat) (text : Str) : Outcome (List Seg) :=
  match Override.analyze text with
  | .err => .err
  | .panic => .panic
  | .ok a =>
    if a.tags = [] then .ok [⟨a.plain, 0, byteLen text, Tags.default⟩]
    else segLoop f32 (byteLen text) text.length [] [] 0 0 Tags.default text

end Verif.Segment
