import Verif.Model.Formats
import Verif.Model.SrtDoc
import Verif.Model.Parser
/-!
# Importers and exporters of the format registry: SRT and WebVTT

`crates/ass-editor/formats/srt/{import,export,styling}.rs` and `formats/webvtt/{cue,importer,exporter,styling}.rs`.
Reading and writing of bytes, the encoding option and the metadata of the result are left out; of the warnings the
number is kept.  The regular expressions are written out as functions: in each of them the groups are bounded by
characters they exclude, so there is at most one way to match at a place.
-/
namespace Verif.FormatDoc
open Verif Verif.Formats
open Verif.SrtDoc (Ev)

/-! ## Regular expressions -/

/-- `Regex::replace_all`: at every place from the left, `m` gives the replacement and the text after the match.
Matches are never empty, so the length is enough fuel. -/
def rewriteAux (m : Str → Option (Str × Str)) : Nat → Str → Str
  | 0, s => s
  | _ + 1, [] => []
  | k + 1, c :: s =>
    match m (c :: s) with
    | some (r, rest) => r ++ rewriteAux m k rest
    | none => c :: rewriteAux m k s

@[inherit_doc rewriteAux] def rewrite (m : Str → Option (Str × Str)) (s : Str) : Str := rewriteAux m s.length s

/-- A literal, then whatever `f` matches. -/
def lit (p : Str) (f : Str → Option (Str × Str)) (s : Str) : Option (Str × Str) :=
  match stripPrefix p s with
  | some r => f r
  | none => none

/-- `[^c]*c`: the text up to the first `c` and the text after it. -/
def upTo (c : Char) (s : Str) : Option (Str × Str) := splitOnce c s

/-- `[^c]+c`. -/
def upTo1 (c : Char) (s : Str) : Option (Str × Str) :=
  match splitOnce c s with
  | some (x :: a, b) => some (x :: a, b)
  | _ => none

/-- `?` after a literal character. -/
def skipOpt (c : Char) : Str → Str
  | x :: s => if x = c then s else x :: s
  | [] => []

/-- `\\c&H([0-9A-Fa-f]{6})&` (srt/styling.rs line 52, webvtt/styling.rs line 63), replaced by `before`, the digits
and `after`. -/
def assColour (before after : Str) : Str → Option (Str × Str) :=
  lit "\\c&H".toList (fun s =>
    let h := s.take 6
    if h.length = 6 ∧ h.all isHexDigit then
      match s.drop 6 with
      | '&' :: rest => some (before ++ h ++ after, rest)
      | _ => none
    else none)

/-- `\\fn([^}]+)` (srt/styling.rs line 59, webvtt/styling.rs line 68). -/
def assFont (before after : Str) : Str → Option (Str × Str) :=
  lit "\\fn".toList (fun s =>
    let h := s.takeWhile (· ≠ '}')
    if h = [] then none else some (before ++ h ++ after, s.dropWhile (· ≠ '}')))

/-- `\\pos\(([^,]+),([^)]+)\)` (webvtt/styling.rs line 73). -/
def assPos : Str → Option (Str × Str) :=
  lit "\\pos(".toList (fun s =>
    match upTo1 ',' s with
    | none => none
    | some (_, r) =>
      match upTo1 ')' r with
      | none => none
      | some (_, r) => some ([], r))

/-- `\{[^}]*\}` (srt/styling.rs line 65, webvtt/styling.rs line 77). -/
def assBlock : Str → Option (Str × Str) :=
  lit ['{'] (fun s =>
    match upTo '}' s with
    | none => none
    | some (_, r) => some ([], r))

/-- `<font color="?#?([0-9A-Fa-f]{6})"?>`, srt/styling.rs line 23. -/
def fontColour : Str → Option (Str × Str) :=
  lit "<font color=".toList (fun s =>
    let s := skipOpt '#' (skipOpt '"' s)
    let h := s.take 6
    if h.length = 6 ∧ h.all isHexDigit then
      match skipOpt '"' (s.drop 6) with
      | '>' :: rest => some ("{\\c&H".toList ++ h ++ "&}".toList, rest)
      | _ => none
    else none)

/-- `<font face="([^"]+)">`, srt/styling.rs line 28. -/
def fontFace : Str → Option (Str × Str) :=
  lit "<font face=\"".toList (fun s =>
    match upTo1 '"' s with
    | some (h, '>' :: rest) => some ("{\\fn".toList ++ h ++ ['}'], rest)
    | _ => none)

/-- `([^<]*)` and then `close`, which starts with `<`. -/
def enclosed (close : Str) (s : Str) : Option (Str × Str) :=
  match stripPrefix close (s.dropWhile (· ≠ '<')) with
  | some rest => some (s.takeWhile (· ≠ '<'), rest)
  | none => none

/-- `<c\.([^>]+)>([^<]*)</c>`, webvtt/styling.rs line 25. -/
def vttClass : Str → Option (Str × Str) :=
  lit "<c.".toList (fun s =>
    match upTo1 '>' s with
    | none => none
    | some (h, r) =>
      match enclosed "</c>".toList r with
      | none => none
      | some (t, r) => some ("{\\c&H".toList ++ h ++ "&}".toList ++ t ++ "{\\c}".toList, r))

/-- `\s+([^>]+)>`: greedy blanks, but at least one character for the name (the last blank when there is nothing
else). -/
def voiceName (s : Str) : Option (Str × Str) :=
  match upTo1 '>' s with
  | none => none
  | some (w, r) =>
    let b := w.takeWhile isWs
    if b = [] then none
    else match w.dropWhile isWs with
      | [] => if b.length < 2 then none else some (b.drop (b.length - 1), r)
      | n => some (n, r)

/-- `<v\s+([^>]+)>([^<]*)</v>`, webvtt/styling.rs line 31. -/
def vttVoice : Str → Option (Str × Str) :=
  lit "<v".toList (fun s =>
    match voiceName s with
    | none => none
    | some (h, r) =>
      match enclosed "</v>".toList r with
      | none => none
      | some (t, r) => some ("{\\fn".toList ++ h ++ "}".toList ++ t ++ "{\\fn}".toList, r))

/-- `<ruby>([^<]*)<rt>([^<]*)</rt></ruby>`, webvtt/styling.rs line 37. -/
def vttRuby : Str → Option (Str × Str) :=
  lit "<ruby>".toList (fun s =>
    match enclosed "<rt>".toList s with
    | none => none
    | some (a, r) =>
      match enclosed "</rt></ruby>".toList r with
      | none => none
      | some (b, r) => some (a ++ ['('] ++ b ++ [')'], r))

/-- `<([0-9:.,]+)>`, webvtt/styling.rs line 41. -/
def vttStamp : Str → Option (Str × Str) :=
  lit ['<'] (fun s =>
    match upTo1 '>' s with
    | none => none
    | some (h, r) =>
      if h.all (fun c => ('0' ≤ c && c ≤ '9') || c = ':' || c = '.' || c = ',') then some ([], r) else none)

/-! ## Styling -/

/-- Replacements one after the other. -/
def replaces : List (Str × Str) → Str → Str
  | [], s => s
  | (p, r) :: l, s => replaces l (replaceAll p r s)

/-- webvtt/styling.rs lines 15-20. -/
def vttTags : List (Str × Str) :=
  [("<b>".toList, "{\\b1}".toList), ("</b>".toList, "{\\b0}".toList), ("<i>".toList, "{\\i1}".toList),
   ("</i>".toList, "{\\i0}".toList), ("<u>".toList, "{\\u1}".toList), ("</u>".toList, "{\\u0}".toList)]

/-- srt/styling.rs lines 11-18. -/
def srtTags : List (Str × Str) :=
  [("<b>".toList, "{\\b1}".toList), ("</b>".toList, "{\\b0}".toList), ("<i>".toList, "{\\i1}".toList),
   ("</i>".toList, "{\\i0}".toList), ("<u>".toList, "{\\u1}".toList), ("</u>".toList, "{\\u0}".toList),
   ("<s>".toList, "{\\s1}".toList), ("</s>".toList, "{\\s0}".toList)]

/-- webvtt/styling.rs lines 53-58. -/
def assTagsVtt : List (Str × Str) :=
  [("{\\b1}".toList, "<b>".toList), ("{\\b0}".toList, "</b>".toList), ("{\\i1}".toList, "<i>".toList),
   ("{\\i0}".toList, "</i>".toList), ("{\\u1}".toList, "<u>".toList), ("{\\u0}".toList, "</u>".toList)]

/-- srt/styling.rs lines 40-47. -/
def assTagsSrt : List (Str × Str) :=
  [("{\\b1}".toList, "<b>".toList), ("{\\b0}".toList, "</b>".toList), ("{\\i1}".toList, "<i>".toList),
   ("{\\i0}".toList, "</i>".toList), ("{\\u1}".toList, "<u>".toList), ("{\\u0}".toList, "</u>".toList),
   ("{\\s1}".toList, "<s>".toList), ("{\\s0}".toList, "</s>".toList)]

/-- `convert_srt_to_ass_styling`, srt/styling.rs lines 7-33. -/
def srtToAss (s : Str) : Str :=
  let s := replaces srtTags s
  let s := rewrite fontColour s
  let s := replaceAll "</font>".toList "{\\c}".toList s
  rewrite fontFace s

/-- `convert_ass_to_srt_styling`, srt/styling.rs lines 36-70. -/
def assToSrt (s : Str) : Str :=
  let s := replaces assTagsSrt s
  let s := rewrite (assColour "<font color=\"#".toList "\">".toList) s
  let s := replaceAll "{\\c}".toList "</font>".toList s
  let s := rewrite (assFont "<font face=\"".toList "\">".toList) s
  rewrite assBlock s

/-- `convert_vtt_to_ass_styling`, webvtt/styling.rs lines 11-46. -/
def vttToAss (s : Str) : Str :=
  let s := replaces vttTags s
  let s := rewrite vttClass s
  let s := rewrite vttVoice s
  let s := rewrite vttRuby s
  rewrite vttStamp s

/-- `convert_ass_to_vtt_styling`, webvtt/styling.rs lines 49-82. -/
def assToVtt (s : Str) : Str :=
  let s := replaces assTagsVtt s
  let s := rewrite (assColour "<c.".toList ">".toList) s
  let s := replaceAll "{\\c}".toList "</c>".toList s
  let s := rewrite (assFont "<v ".toList ">".toList) s
  let s := replaceAll "{\\fn}".toList "</v>".toList s
  let s := rewrite assPos s
  rewrite assBlock s

/-! ## Export -/

/-- Text of an exported entry, srt/export.rs lines 72-79, webvtt/exporter.rs lines 77-84. -/
def exportText (conv : Str → Str) (t : Str) : Str :=
  conv (replaceAll "\\n".toList ['\n'] (replaceAll "\\N".toList ['\n'] t))

/-- The loops of srt/export.rs lines 46-88 and webvtt/exporter.rs lines 53-93: text and number of entries; events
with a time that cannot be written are skipped (with a warning), `panic` is the overflow in the time conversion. -/
def exportFrom (conv : Str → Str) (sep : Char) : Nat → List Ev → Outcome (Str × Nat)
  | _, [] => .ok ([], 0)
  | n, e :: l =>
    if e.dialogue then
      match fmtFormat sep e.start with
      | .panic => .panic
      | .err => exportFrom conv sep n l
      | .ok a =>
        match fmtFormat sep e.fin with
        | .panic => .panic
        | .err => exportFrom conv sep n l
        | .ok b =>
          match exportFrom conv sep (n + 1) l with
          | .ok (s, k) =>
            .ok (showNat n ++ '\n' :: a ++ " --> ".toList ++ b ++ '\n' :: exportText conv e.text ++ "\n\n".toList ++ s, k + 1)
          | o => o
    else exportFrom conv sep n l

/-- `SrtFormat::export_to_writer`: the text written and the number of entries. -/
def exportSrt (l : List Ev) : Outcome (Str × Nat) := exportFrom assToSrt ',' 1 l

/-- `WebVttFormat::export_to_writer`. -/
def exportVtt (l : List Ev) : Outcome (Str × Nat) :=
  match exportFrom assToVtt '.' 1 l with
  | .ok (s, k) => .ok ("WEBVTT\n\n".toList ++ s, k)
  | o => o

/-! ## Import -/

/-- `line.trim().is_empty()`. -/
def blank (l : Str) : Bool := (trim l).isEmpty

/-- `format!("Dialogue: 0,{start},{end},Default,,0,0,0,,{text}")`. -/
def dialogue (a b t : Str) : Str :=
  "Dialogue: 0,".toList ++ a ++ ',' :: b ++ ",Default,,0,0,0,,".toList ++ t

/-- The text lines up to a blank line, srt/import.rs lines 65-78, webvtt/cue.rs lines 116-127: the joined text and
the lines left; an error if there are none. -/
def textLines (conv : Str → Str) (ls : List Str) : Outcome (Str × List Str) :=
  match ls.takeWhile (fun l => !blank l) with
  | [] => .err
  | ts => .ok (joinStr "\\N".toList (ts.map conv), ls.dropWhile (fun l => !blank l))

/-- Times of a subtitle, srt/import.rs lines 45-60. -/
def srtTimes (line : Str) : Option (Str × Str) :=
  if containsStr "-->".toList line then
    match splitStr "-->".toList line with
    | [a, b] =>
      match fmtParseSrt a with
      | none => none
      | some x =>
        match fmtParseSrt b with
        | none => none
        | some y => some (x, y)
    | _ => none
  else none

/-- `parse_srt_subtitle`, srt/import.rs lines 11-82, on the lines from `start_idx` on. -/
def srtSubtitle (ls : List Str) : Outcome (Str × List Str) :=
  match ls.dropWhile blank with
  | _ :: line :: rest =>
    match srtTimes line with
    | none => .err
    | some (x, y) =>
      match textLines srtToAss rest with
      | .ok (t, rest') => .ok (dialogue x y t, rest')
      | .err => .err
      | .panic => .panic
  | _ => .err

/-- `str::split_whitespace`; `cur` is the word being read, reversed. -/
def splitWsAux : Str → Str → List Str
  | cur, [] => if cur = [] then [] else [cur.reverse]
  | cur, c :: s => if isWs c then (if cur = [] then splitWsAux [] s else cur.reverse :: splitWsAux [] s) else splitWsAux (c :: cur) s

@[inherit_doc splitWsAux] def splitWs (s : Str) : List Str := splitWsAux [] s

/-- `parse_cue_settings`, webvtt/cue.rs lines 13-25; later settings come first. -/
def cueSettings : List Str → List (Str × Str) → List (Str × Str)
  | [], acc => acc
  | w :: l, acc =>
    match splitOnce ':' w with
    | some (k, v) => cueSettings l ((k, v) :: acc)
    | none => cueSettings l acc

/-- Alignment number, webvtt/cue.rs lines 43-48. -/
def alignNo (v : Str) : Str :=
  if v = "start".toList ∨ v = "left".toList then ['1']
  else if v = "center".toList ∨ v = "middle".toList then ['2']
  else if v = "end".toList ∨ v = "right".toList then ['3']
  else ['2']

/-- `\pos` tag, webvtt/cue.rs lines 32-39.  `coord n v` is `(v.parse::<f32>()? * n) as u32`. -/
def posTag (coord : Nat → Str → Option Nat) (st : List (Str × Str)) : Str :=
  match st.lookup "line".toList, st.lookup "position".toList with
  | some l, some p =>
    match coord 480 l, coord 640 p with
    | some y, some x => "\\pos(".toList ++ showNat x ++ ',' :: showNat y ++ [')']
    | _, _ => []
  | _, _ => []

/-- `cue_settings_to_ass_positioning`, webvtt/cue.rs lines 28-57. -/
def positioning (coord : Nat → Str → Option Nat) (st : List (Str × Str)) : Str :=
  let an := match st.lookup "align".toList with
    | some a => "\\an".toList ++ alignNo a
    | none => []
  let tags := posTag coord st ++ an
  if tags = [] then [] else '{' :: tags ++ ['}']

/-- A cue whose timing line is `line`, webvtt/cue.rs lines 91-132; `panic`: nothing follows the arrow (line 103). -/
def vttTimed (coord : Nat → Str → Option Nat) (line : Str) (rest : List Str) : Outcome (Str × List Str) :=
  match splitStr "-->".toList line with
  | a :: b :: _ =>
    match fmtParseVtt a with
    | none => .err
    | some x =>
      match splitWs b with
      | [] => .panic
      | w :: ws =>
        match fmtParseVtt w with
        | none => .err
        | some y =>
          match textLines vttToAss rest with
          | .ok (t, rest') => .ok (dialogue x y (positioning coord (cueSettings ws []) ++ t), rest')
          | .err => .err
          | .panic => .panic
  | _ => .err

/-- Lines skipped before a cue, webvtt/cue.rs lines 73-80. -/
def vttSkipped (l : Str) : Bool := blank l || startsWith "NOTE".toList (trim l)

/-- `parse_vtt_cue`, webvtt/cue.rs lines 60-144; the number bounds the recursion of line 137, which happens at most
once for every line. -/
def vttCueAux (coord : Nat → Str → Option Nat) : Nat → List Str → Outcome (Str × List Str)
  | 0, _ => .err
  | k + 1, ls =>
    match ls.dropWhile vttSkipped with
    | [] => .err
    | line :: rest =>
      if containsStr "-->".toList line then vttTimed coord line rest
      else match rest with
        | m :: _ => if containsStr "-->".toList m then vttCueAux coord k rest else .err
        | [] => .err

@[inherit_doc vttCueAux] def vttCue (coord : Nat → Str → Option Nat) (ls : List Str) : Outcome (Str × List Str) :=
  vttCueAux coord (ls.length + 1) ls

/-- The loops of srt/import.rs lines 108-127 and webvtt/importer.rs lines 43-59: the event lines and the number of
warnings.  Every round takes at least one line. -/
def importLoop (p : List Str → Outcome (Str × List Str)) : Nat → List Str → Outcome (List Str × Nat)
  | _, [] => .ok ([], 0)
  | 0, _ => .ok ([], 0)
  | k + 1, l :: ls =>
    match p (l :: ls) with
    | .ok (d, rest) =>
      match importLoop p k rest with
      | .ok (ds, w) => .ok (d :: ds, w)
      | o => o
    | .err =>
      match importLoop p k ls with
      | .ok (ds, w) => .ok (ds, w + 1)
      | o => o
    | .panic => .panic

/-- Event lines of an SRT text, srt/import.rs lines 101-127. -/
def srtDialogues (content : Str) : Outcome (List Str × Nat) :=
  let ls := lines content
  importLoop srtSubtitle ls.length ls

/-- Event lines of a WebVTT text, webvtt/importer.rs lines 29-59. -/
def vttDialogues (coord : Nat → Str → Option Nat) (content : Str) : Outcome (List Str × Nat) :=
  match lines content with
  | [] => .ok ([], 1)
  | l :: ls =>
    if startsWith "WEBVTT".toList (trim l) then importLoop (vttCue coord) ls.length ls
    else match importLoop (vttCue coord) (ls.length + 1) (l :: ls) with
      | .ok (ds, w) => .ok (ds, w + 1)
      | o => o

/-- The script before the events, srt/import.rs lines 133-152. -/
def srtHead : Str :=
  "[Script Info]\n".toList ++
  "Title: Converted from SRT\n".toList ++
  "ScriptType: v4.00+\n".toList ++
  "Collisions: Normal\n".toList ++
  "PlayDepth: 0\n".toList ++
  "Timer: 100.0000\n".toList ++
  "Video Aspect Ratio: 0\n".toList ++
  "Video Zoom: 6\n".toList ++
  "Video Position: 0\n".toList ++
  "\n".toList ++
  "[V4+ Styles]\n".toList ++
  "Format: Name, Fontname, Fontsize, PrimaryColour, SecondaryColour, OutlineColour, BackColour, Bold, Italic,".toList ++
  " Underline, StrikeOut, ScaleX, ScaleY, Spacing, Angle, BorderStyle, Outline, Shadow, Alignment, MarginL,".toList ++
  " MarginR, MarginV, Encoding\n".toList ++
  "Style: Default,Arial,20,&H00FFFFFF,&H000000FF,&H00000000,&H80000000,0,0,0,0,100,100,0,0,1,2,0,2,10,10,10,1\n".toList ++
  "\n".toList ++
  "[Events]\n".toList ++
  "Format: Layer, Start, End, Style, Name, MarginL, MarginR, MarginV, Effect, Text\n".toList

/-- The script before the events, webvtt/importer.rs lines 65-86. -/
def vttHead : Str :=
  "[Script Info]\n".toList ++
  "Title: Converted from WebVTT\n".toList ++
  "ScriptType: v4.00+\n".toList ++
  "Collisions: Normal\n".toList ++
  "PlayDepth: 0\n".toList ++
  "Timer: 100.0000\n".toList ++
  "Video Aspect Ratio: 0\n".toList ++
  "Video Zoom: 6\n".toList ++
  "Video Position: 0\n".toList ++
  "PlayResX: 640\n".toList ++
  "PlayResY: 480\n".toList ++
  "\n".toList ++
  "[V4+ Styles]\n".toList ++
  "Format: Name, Fontname, Fontsize, PrimaryColour, SecondaryColour, OutlineColour, BackColour, Bold, Italic,".toList ++
  " Underline, StrikeOut, ScaleX, ScaleY, Spacing, Angle, BorderStyle, Outline, Shadow, Alignment, MarginL,".toList ++
  " MarginR, MarginV, Encoding\n".toList ++
  "Style: Default,Arial,20,&H00FFFFFF,&H000000FF,&H00000000,&H80000000,0,0,0,0,100,100,0,0,1,2,0,2,10,10,10,1\n".toList ++
  "\n".toList ++
  "[Events]\n".toList ++
  "Format: Layer, Start, End, Style, Name, MarginL, MarginR, MarginV, Effect, Text\n".toList

/-- The imported document's text. -/
def script (head : Str) (ds : List Str) : Str := head ++ ds.flatMap (· ++ ['\n'])

/-- `SrtFormat::import_from_reader`: the document's text and the number of warnings. -/
def importSrt (content : Str) : Outcome (Str × Nat) :=
  match srtDialogues content with
  | .ok (ds, w) => .ok (script srtHead ds, w)
  | .err => .err
  | .panic => .panic

/-- `WebVttFormat::import_from_reader`. -/
def importVtt (coord : Nat → Str → Option Nat) (content : Str) : Outcome (Str × Nat) :=
  match vttDialogues coord content with
  | .ok (ds, w) => .ok (script vttHead ds, w)
  | .err => .err
  | .panic => .panic

end Verif.FormatDoc
