import Verif.Model.Formats
import Verif.Model.StrX
/-!
# SRT and WebVTT documents — `crates/ass-editor/utils/formats/{export_srt,import_srt,export_webvtt,import_webvtt}.rs`

The events of the document are given as the parser returned them.  The header text written by the importers
and the optional style block and cue settings of WebVTT (off by default) are left out.
-/
namespace Verif.SrtDoc
open Verif Verif.Formats

/-- The fields of an event the exporters read. -/
structure Ev where
  dialogue : Bool
  start : Str
  fin : Str
  text : Str
deriving DecidableEq, Repr

/-- `SrtEntry` (import_srt.rs lines 180-185), `WebVttCue` (import_webvtt.rs lines 179-184). -/
structure Entry where
  start : Str
  fin : Str
  text : Str
deriving DecidableEq, Repr

/-- `text.replace("\\N", "\n")`, export_srt.rs line 59. -/
def breakLines (t : Str) : Str := replaceAll "\\N".toList ['\n'] t

/-- The text written for an event, export_srt.rs lines 54-59, export_webvtt.rs lines 69-74. -/
def bodyText (strip : Bool) (t : Str) : Str :=
  breakLines (if strip then stripAssTags t else convertAssFormatting t)

/-- The loop of `export_srt`, lines 40-64, with the running index. -/
def exportSrtFrom (strip : Bool) : Nat → List Ev → Outcome Str
  | _, [] => .ok []
  | i, e :: l =>
    if e.dialogue then
      match assTimeToSrt e.start, assTimeToSrt e.fin with
      | .ok a, .ok b =>
        match exportSrtFrom strip (i + 1) l with
        | .ok rest =>
          .ok (showNat i ++ '\n' :: a ++ " --> ".toList ++ b ++ '\n' :: bodyText strip e.text ++ "\n\n".toList ++ rest)
        | r => r
      | _, _ => .panic
    else exportSrtFrom strip i l

/-- `export_srt`, lines 32-68. -/
def exportSrt (strip : Bool) (l : List Ev) : Outcome Str := exportSrtFrom strip 1 l

/-- `Regex::new(r"<[^>]+>").replace_all(_, "")`: at a `<` followed by at least one character other than `>`
and then `>`, all of that is dropped.  `fuel = length` suffices. -/
def removeHtmlAux : Nat → Str → Str
  | 0, s => s
  | _ + 1, [] => []
  | k + 1, c :: s =>
    if c = '<' then
      match splitOnce '>' s with
      | some (b, r) => if b = [] then c :: removeHtmlAux k s else removeHtmlAux k r
      | none => c :: removeHtmlAux k s
    else c :: removeHtmlAux k s

/-- `<[^>]+>` removed everywhere. -/
def removeHtml (s : Str) : Str := removeHtmlAux s.length s

/-- The replacements of `convert_srt_formatting`, import_srt.rs lines 159-164. -/
def htmlToAss (s : Str) : Str :=
  let r := replaceAll "<i>".toList "{\\i1}".toList s
  let r := replaceAll "</i>".toList "{\\i0}".toList r
  let r := replaceAll "<b>".toList "{\\b1}".toList r
  let r := replaceAll "</b>".toList "{\\b0}".toList r
  let r := replaceAll "<u>".toList "{\\u1}".toList r
  replaceAll "</u>".toList "{\\u0}".toList r

/-- `convert_srt_formatting`, import_srt.rs lines 155-176. -/
def convertSrtFormatting (s : Str) : Str := removeHtml (htmlToAss s)

/-- State of the loop in `parse_srt_entries`. -/
structure St where
  entries : List Entry
  current : Option Entry
  inText : Bool
deriving DecidableEq, Repr

/-- `current_entry.take()` pushed, lines 63-69. -/
def St.flush (st : St) : St :=
  ⟨match st.current with
    | some e => st.entries ++ [e]
    | none => st.entries, none, false⟩

/-- Adding a line of text, lines 92-101. -/
def St.addText (st : St) (t : Str) : St :=
  if st.inText then
    { st with current := st.current.map (fun e => { e with text := (if e.text ≠ [] then e.text ++ "\\N".toList else e.text) ++ t }) }
  else st

/-- A timestamp line, lines 80-87. -/
def St.addTimes (st : St) (line : Str) : Option St :=
  match st.current with
  | none => some st
  | some e =>
    match splitStr "-->".toList line with
    | [a, b] =>
      match parseSrtTime (trim a) with
      | none => none
      | some x =>
      match parseSrtTime (trim b) with
      | none => none
      | some y => some { st with current := some { e with start := x, fin := y }, inText := true }
    | _ => some st

/-- One line of `parse_srt_entries`, lines 61-101; `none` is an error. -/
def srtLine (st : St) (raw : Str) : Option St :=
  let line := trim raw
  if line = [] then some st.flush
  else if line.all (fun c => '0' ≤ c && c ≤ '9') && !st.inText then
    some { st with current := some ⟨[], [], []⟩ }
  else if containsStr "-->".toList line then st.addTimes line
  else some (st.addText (convertSrtFormatting line))

/-- The loop over the lines. -/
def srtLines : St → List Str → Option St
  | st, [] => some st
  | st, l :: ls =>
    match srtLine st l with
    | none => none
    | some st' => srtLines st' ls

/-- `parse_srt_entries`, lines 55-110. -/
def parseSrtEntries (content : Str) : Option (List Entry) :=
  match srtLines ⟨[], none, false⟩ (lines content) with
  | none => none
  | some st => some st.flush.entries

/-! ## WebVTT -/

/-- The loop of `export_webvtt`, lines 44-79. -/
def exportVttEvents (strip : Bool) : List Ev → Outcome Str
  | [] => .ok []
  | e :: l =>
    if e.dialogue then
      match assTimeToWebvtt e.start, assTimeToWebvtt e.fin with
      | .ok a, .ok b =>
        match exportVttEvents strip l with
        | .ok rest => .ok (a ++ " --> ".toList ++ b ++ '\n' :: bodyText strip e.text ++ "\n\n".toList ++ rest)
        | r => r
      | _, _ => .panic
    else exportVttEvents strip l

/-- `export_webvtt`, lines 20-83, with the default options (no style block, no cue settings). -/
def exportVtt (strip : Bool) (l : List Ev) : Outcome Str :=
  match exportVttEvents strip l with
  | .ok s => .ok ("WEBVTT\n\n".toList ++ s)
  | r => r

/-- `Regex::new(r"<v\s+([^>]+)>").replace_all(_, "")`: `<v`, white space and at least one more character
before the next `>`. -/
def removeVoiceAux : Nat → Str → Str
  | 0, s => s
  | _ + 1, [] => []
  | k + 1, c :: s =>
    match stripPrefix "<v".toList (c :: s) with
    | some t =>
      match splitOnce '>' t with
      | some (w :: _ :: _, r) => if isWs w then removeVoiceAux k r else c :: removeVoiceAux k s
      | _ => c :: removeVoiceAux k s
    | none => c :: removeVoiceAux k s

/-- `convert_webvtt_formatting`, import_webvtt.rs lines 150-175. -/
def convertVttFormatting (s : Str) : Str :=
  let r := htmlToAss s
  removeHtml (replaceAll "</v>".toList [] (removeVoiceAux r.length r))

/-- A timestamp line, import_webvtt.rs lines 74-83. -/
def St.addVttTimes (st : St) (line : Str) : Option St :=
  match splitStr "-->".toList line with
  | a :: b :: _ =>
    match parseWebvttTime (trim a) with
    | none => none
    | some x =>
    match parseWebvttTime (trim b) with
    | none => none
    | some y => some { st with current := some ⟨x, y, []⟩, inText := true }
  | _ => some { st with current := some ⟨[], [], []⟩ }

/-- One line of `parse_webvtt_cues`, lines 61-95; `none` is an error. -/
def vttLine (st : St) (raw : Str) : Option St :=
  let line := trim raw
  if startsWith "WEBVTT".toList line || startsWith "NOTE".toList line || line = [] then some st.flush
  else if containsStr "-->".toList line then st.addVttTimes line
  else some (st.addText (convertVttFormatting line))

/-- The loop over the lines. -/
def vttLines : St → List Str → Option St
  | st, [] => some st
  | st, l :: ls =>
    match vttLine st l with
    | none => none
    | some st' => vttLines st' ls

/-- `parse_webvtt_cues`, lines 55-104. -/
def parseVttCues (content : Str) : Option (List Entry) :=
  match vttLines ⟨[], none, false⟩ (lines content) with
  | none => none
  | some st => some st.flush.entries

end Verif.SrtDoc
