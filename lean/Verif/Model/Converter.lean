import Verif.Model.SrtDoc
import Verif.Model.Parser
import Verif.Model.Complete
/-!
# Converting between formats — `crates/ass-editor/utils/formats/{types,converter,file_io,plain_text,export_srt,import_srt,import_webvtt}.rs`

With the default options but for `strip_formatting`.  The parsing of SRT and WebVTT and the writing of events are in `Model/SrtDoc.lean`.
-/
namespace Verif.Converter
open Verif Verif.SrtDoc
open Verif.Parser (Script Section parse)

/-- `SubtitleFormat`, types.rs lines 8-19. -/
inductive Format where
  | ass | ssa | srt | vtt | txt
deriving DecidableEq, Repr

/-- `from_extension`, types.rs lines 23-32.  Lower case is that of ASCII: no other character has one of the letters of these words as its
lower case. -/
def fromExtension (ext : Str) : Option Format :=
  let e := ext.map Char.toLower
  if e = "ass".toList then some .ass
  else if e = "ssa".toList then some .ssa
  else if e = "srt".toList then some .srt
  else if e = "vtt".toList ∨ e = "webvtt".toList then some .vtt
  else if e = "txt".toList then some .txt
  else none

/-- `from_content`, types.rs lines 35-45. -/
def fromContent (s : Str) : Format :=
  if containsStr "[Script Info]".toList s || containsStr "[Events]".toList s then .ass
  else if startsWith "WEBVTT".toList s then .vtt
  else if containsStr "-->".toList s && !startsWith "WEBVTT".toList s then .srt
  else .txt

/-- `extension`, types.rs lines 48-56. -/
def extension : Format → Str
  | .ass => "ass".toList
  | .ssa => "ssa".toList
  | .srt => "srt".toList
  | .vtt => "vtt".toList
  | .txt => "txt".toList

/-- The header with further properties, import_srt.rs lines 22-41, import_webvtt.rs lines 21-41, plain_text.rs lines 23-35. -/
def head (title more : Str) : Str :=
  "[Script Info]\nTitle: ".toList ++ title ++ "\nScriptType: v4.00+\n".toList ++ more ++
  ("\n".toList ++
  "[V4+ Styles]\n".toList ++
  "Format: Name, Fontname, Fontsize, PrimaryColour, SecondaryColour, OutlineColour, BackColour, Bold, Italic,".toList ++
  " Underline, StrikeOut, ScaleX, ScaleY, Spacing, Angle, BorderStyle, Outline, Shadow, Alignment, MarginL,".toList ++
  " MarginR, MarginV, Encoding\n".toList ++
  "Style: Default,Arial,20,&H00FFFFFF,&H000000FF,&H00000000,&H00000000,0,0,0,0,100,100,0,0,1,2,0,2,10,10,10,1\n".toList ++
  "\n".toList ++
  "[Events]\n".toList ++
  "Format: Layer, Start, End, Style, Name, MarginL, MarginR, MarginV, Effect, Text\n".toList)

/-- The properties after the script type, import_srt.rs lines 25-28, import_webvtt.rs lines 25-28. -/
def video : Str := "WrapStyle: 0\nPlayResX: 640\nPlayResY: 480\nScaledBorderAndShadow: yes\n".toList

/-- A line for an entry, import_srt.rs lines 46-49, import_webvtt.rs lines 46-49, plain_text.rs lines 39-41. -/
def eventLine (e : Entry) : Str :=
  "Dialogue: 0,".toList ++ e.start ++ ',' :: e.fin ++ ",Default,,0,0,0,,".toList ++ e.text ++ ['\n']

/-- `import_srt`, import_srt.rs lines 19-53; `none` is an error. -/
def importSrt (s : Str) : Option Str :=
  (parseSrtEntries s).map fun l => head "Imported from SRT".toList video ++ l.flatMap eventLine

/-- `import_webvtt`, import_webvtt.rs lines 19-53. -/
def importVtt (s : Str) : Option Str :=
  (parseVttCues s).map fun l => head "Imported from WebVTT".toList video ++ l.flatMap eventLine

/-- `import_plain_text`, plain_text.rs lines 20-44. -/
def importPlain (s : Str) : Str :=
  head "Imported from Plain Text".toList [] ++
    eventLine ⟨"0:00:00.00".toList, "0:00:05.00".toList, joinStr "\\N".toList (lines s)⟩

/-- `FormatConverter::import`, converter.rs lines 17-29. -/
def importAs (s : Str) (f : Option Format) : Option Str :=
  match f.getD (fromContent s) with
  | .ass | .ssa => some s
  | .srt => importSrt s
  | .vtt => importVtt s
  | .txt => some (importPlain s)

/-- The events the exporters go through, export_srt.rs lines 40-42. -/
def events (s : Script) : List Ev :=
  s.sections.flatMap fun
    | .events l => l.map fun e => ⟨decide (e.1.kind = .dialogue), e.1.start, e.1.stop, e.1.text⟩
    | _ => []

/-- The loop of `export_plain_text`, plain_text.rs lines 54-68. -/
def exportPlain (strip : Bool) : List Ev → Str
  | [] => []
  | e :: l =>
    (if e.dialogue then breakLines (if strip then Formats.stripAssTags e.text else e.text) ++ ['\n'] else []) ++ exportPlain strip l

/-- `export_ssa`, export_srt.rs lines 20-29. -/
def exportSsa (text : Str) : Str :=
  replaceAll "ScriptType: v4.00+".toList "ScriptType: v4.00".toList
    (replaceAll "[V4+ Styles]".toList "[V4 Styles]".toList text)

/-- `FormatConverter::export`, converter.rs lines 32-44; `text` is the document's.  It is an error if the parser refuses the text. -/
def exportAs (text : Str) (f : Format) (strip : Bool) : Outcome Str :=
  match f with
  | .ass => .ok text
  | .ssa => .ok (exportSsa text)
  | .srt => match parse text with
    | some s => exportSrt strip (events s)
    | none => .err
  | .vtt => match parse text with
    | some s => exportVtt strip (events s)
    | none => .err
  | .txt => match parse text with
    | some s => .ok (exportPlain strip (events s))
    | none => .err

/-- The format a path names, file_io.rs lines 18-20 and 38-39. -/
def ofPath (path : Str) : Option Format := (Complete.rsplit '.' path).bind fun p => fromExtension p.2

/-- `import_from_file`, file_io.rs lines 13-24: the text of the document made from the contents of the file. -/
def importFile (path content : Str) : Option Str := importAs content (ofPath path)

/-- `export_to_file`, file_io.rs lines 28-48: what is written. -/
def exportFile (text path : Str) (f : Option Format) (strip : Bool) : Outcome Str :=
  exportAs text ((f.or (ofPath path)).getD .ass) strip

end Verif.Converter
