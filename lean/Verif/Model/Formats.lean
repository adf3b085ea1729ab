import Verif.Model.Bytes
import Verif.Model.Outcome
/-!
# Subtitle format conversion — `crates/ass-editor/utils/formats/*.rs`, `crates/ass-editor/formats/{srt,webvtt}/time.rs`
-/
namespace Verif.Formats
open Verif

/-! ## Tag stripping -/

/-- One round of the loop in `strip_ass_tags`, export_srt.rs lines 120-126: the first `{` and the first `}`
after it, with what is between them, are removed.  The offsets found are those of one-byte characters, so
slicing does not panic. -/
def stripStep (s : Str) : Option Str :=
  match splitOnce '{' s with
  | none => none
  | some (a, r) =>
    match splitOnce '}' r with
    | none => none
    | some (_, b) => some (a ++ b)

/-- The `while let` loop; every round shortens the text, so `fuel = length` suffices (`stripLoop_fuel`). -/
def stripLoop : Nat → Str → Str
  | 0, s => s
  | k + 1, s =>
    match stripStep s with
    | none => s
    | some t => stripLoop k t

/-- `strip_ass_tags`, export_srt.rs lines 118-128. -/
def stripAssTags (s : Str) : Str := stripLoop s.length s

/-- `convert_ass_to_srt_formatting`, export_srt.rs lines 94-115, which is also
`convert_ass_to_webvtt_formatting`, export_webvtt.rs lines 109-130. -/
def convertAssFormatting (s : Str) : Str :=
  let r := replaceAll "{\\i1}".toList "<i>".toList s
  let r := replaceAll "{\\i0}".toList "</i>".toList r
  let r := replaceAll "{\\b1}".toList "<b>".toList r
  let r := replaceAll "{\\b0}".toList "</b>".toList r
  let r := replaceAll "{\\u1}".toList "<u>".toList r
  let r := replaceAll "{\\u0}".toList "</u>".toList r
  stripAssTags r

/-! ## Time strings, `FormatConverter` -/

/-- The common part of `ass_time_to_srt` (export_srt.rs lines 71-91, `sep = ','`) and `ass_time_to_webvtt`
(export_webvtt.rs lines 86-106, `sep = '.'`).  `* 10` on `u32` panics when it overflows. -/
def assTimeTo (sep : Char) (time : Str) : Outcome Str :=
  match splitOn ':' time with
  | [h, m, sec] =>
    match splitOn '.' sec with
    | [] => .panic
    | s0 :: rest =>
      let cs := match rest with
        | [] => "00".toList
        | c :: _ => c
      let ms := (parseU32 cs).getD 0 * 10
      if ms < u32Bound then
        .ok (showPad 2 ((parseU32 h).getD 0) ++ ':' :: m ++ ':' :: s0 ++ sep :: showPad 3 ms)
      else .panic
  | _ => .ok time

/-- `ass_time_to_srt`. -/
def assTimeToSrt : Str → Outcome Str := assTimeTo ','

/-- `ass_time_to_webvtt`. -/
def assTimeToWebvtt : Str → Outcome Str := assTimeTo '.'

/-- Seconds and centiseconds: import_srt.rs lines 134-147, import_webvtt.rs lines 129-142. -/
def parseSecMs (s : Str) : Option (Nat × Nat) :=
  match splitOn '.' s with
  | [] => none
  | s0 :: rest =>
    match parseU32 s0 with
    | none => none
    | some sec =>
      match rest with
      | [] => some (sec, 0)
      | c :: _ => some (sec, (parseU32 c).getD 0 / 10)

/-- The final `format!`, import_srt.rs lines 149-151, import_webvtt.rs lines 144-146. -/
def assTime (h m s c : Nat) : Str :=
  showNat h ++ ':' :: showPad 2 m ++ ':' :: showPad 2 s ++ '.' :: showPad 2 c

/-- `parse_srt_time`, import_srt.rs lines 113-152. -/
def parseSrtTime (time : Str) : Option Str :=
  match splitOn ':' (replaceAll [','] ['.'] time) with
  | [h, m, sec] =>
    match parseU32 h with
    | none => none
    | some hours =>
    match parseU32 m with
    | none => none
    | some minutes =>
    match parseSecMs sec with
    | none => none
    | some (seconds, cs) => some (assTime hours minutes seconds cs)
  | _ => none

/-- import_webvtt.rs lines 125-146. -/
def webvttRest (hours : Nat) (m sec : Str) : Option Str :=
  match parseU32 m with
  | none => none
  | some minutes =>
    match parseSecMs sec with
    | none => none
    | some (seconds, cs) => some (assTime hours minutes seconds cs)

/-- `parse_webvtt_time`, import_webvtt.rs lines 107-147. -/
def parseWebvttTime (time : Str) : Option Str :=
  match splitOn ':' time with
  | [h, m, sec] => webvttRest ((parseU32 h).getD 0) m sec
  | [m, sec] => webvttRest 0 m sec
  | _ => none

/-! ## Time strings, `SrtFormat` and `WebVttFormat` -/

/-- The removal of one leading zero: srt/time.rs lines 23-27, webvtt/time.rs lines 42-46. -/
def dropZero (s : Str) : Str :=
  match s with
  | '0' :: c :: t => c :: t
  | t => t

/-- `SrtFormat::parse_srt_time`, formats/srt/time.rs lines 8-35. -/
def fmtParseSrt (s : Str) : Option Str :=
  match splitOnce ',' (trim s) with
  | none => none
  | some (t, msPart) =>
    match parseU32 msPart with
    | none => none
    | some ms => some (dropZero t ++ '.' :: showPad 2 (ms / 10))

/-- `SrtFormat::format_srt_time` (lines 38-69, `sep = ','`) and `WebVttFormat::format_vtt_time`
(webvtt/time.rs lines 63-94, `sep = '.'`). -/
def fmtFormat (sep : Char) (s : Str) : Outcome Str :=
  match splitOnce '.' (trim s) with
  | none => .err
  | some (t, csPart) =>
    match parseU32 csPart with
    | none => .err
    | some cs =>
      if cs * 10 < u32Bound then
        match splitOn ':' t with
        | [h, m, sec] =>
          match parseU32 h with
          | none => .err
          | some hours => .ok (showPad 2 hours ++ ':' :: m ++ ':' :: sec ++ sep :: showPad 3 (cs * 10))
        | _ => .err
      else .panic

/-- `WebVttFormat::parse_vtt_time`, formats/webvtt/time.rs lines 12-60. -/
def fmtParseVtt (s : Str) : Option Str :=
  match splitOn '.' (trim s) with
  | [t, msPart] =>
    match parseU32 msPart with
    | none => none
    | some ms =>
      match splitOn ':' t with
      | [_, _] => some ('0' :: ':' :: t ++ '.' :: showPad 2 (ms / 10))
      | [h, m, sec] => some (dropZero h ++ ':' :: m ++ ':' :: sec ++ '.' :: showPad 2 (ms / 10))
      | _ => none
  | _ => none

end Verif.Formats
