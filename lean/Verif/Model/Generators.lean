import Verif.Model.Str
import Verif.Model.StrX
import Verif.Model.Bytes
import Verif.Model.FormatDoc
/-!
# Model: the generators of scripts for benchmarks

crates/ass-core/utils/benchmark_generators/{generator,script_sections,dialogue,scripts}.rs.  Numbers of type `usize` are
unbounded here; capacities reserved in advance are left out.
-/
namespace Verif.Generators
open Verif

/-- `ComplexityLevel`, generator.rs lines 25-45. -/
inductive Level
  | simple | moderate | complex | extreme | anime | movie | karaoke | sign | educational
deriving DecidableEq

/-- `ScriptGenerator`, generator.rs lines 12-22. -/
structure Gen where
  title : Str
  styles : Nat
  events : Nat
  level : Level

/-- The constructors, generator.rs lines 47-146. -/
def preset : Level → Nat → Gen
  | .simple, n => ⟨"Simple Benchmark Script".toList, 1, n, .simple⟩
  | .moderate, n => ⟨"Moderate Benchmark Script".toList, 5, n, .moderate⟩
  | .complex, n => ⟨"Complex Benchmark Script".toList, 10, n, .complex⟩
  | .extreme, n => ⟨"Extreme Benchmark Script".toList, 20, n, .extreme⟩
  | .anime, n => ⟨"Anime Subtitles".toList, 15, n, .anime⟩
  | .movie, n => ⟨"Movie Subtitles".toList, 3, n, .movie⟩
  | .karaoke, n => ⟨"Karaoke Script".toList, 8, n, .karaoke⟩
  | .sign, n => ⟨"Sign Translation".toList, 12, n, .sign⟩
  | .educational, n => ⟨"Educational Content".toList, 6, n, .educational⟩

/-- `generate_script_info`, script_sections.rs lines 41-53. -/
def info (title : Str) : Str :=
  "[Script Info]\nTitle: ".toList ++ title ++
    "\nScriptType: v4.00+\nWrapStyle: 0\nScaledBorderAndShadow: yes\nPlayResX: 1920\nPlayResY: 1080".toList

/-- `format!("{:06X}")`: hexadecimal capitals, at least six. -/
def hex6 (n : Nat) : Str :=
  let d := (Nat.toDigits 16 n).map Char.toUpper
  List.replicate (6 - d.length) '0' ++ d

/-- The format line of styles, script_sections.rs line 59; scripts.rs lines 71 and 121. -/
def styleFormat : Str :=
  ("Format: Name, Fontname, Fontsize, PrimaryColour, SecondaryColour, OutlineColour, BackColour, Bold, Italic,".toList ++
  " Underline, StrikeOut, ScaleX, ScaleY, Spacing, Angle, BorderStyle, Outline, Shadow, Alignment, MarginL,".toList ++
  " MarginR, MarginV, Encoding\n".toList)

/-- The format line of events, script_sections.rs line 86; scripts.rs lines 74 and 125. -/
def eventFormat : Str := "Format: Layer, Start, End, Style, Name, MarginL, MarginR, MarginV, Effect, Text\n".toList

/-- The name of the style, script_sections.rs lines 63-69. -/
def styleName (i : Nat) : Str := if i = 0 then "Default".toList else "Style".toList ++ showNat i

/-- The colour, script_sections.rs line 71. -/
def colour (i : Nat) : Str := "&H00".toList ++ hex6 (i * 0x111111) ++ ['&']

/-- One style line, script_sections.rs lines 63-76. -/
def styleLine (i : Nat) : Str :=
  "Style: ".toList ++ styleName i ++ ",Arial,".toList ++ showNat (20 + i * 2) ++ [','] ++ colour i ++ [','] ++ colour i ++ [','] ++
    colour i ++ ",&H00000000&,0,0,0,0,100,100,0,0,1,2,0,2,10,10,10,1\n".toList

/-- `generate_styles`, script_sections.rs lines 55-80. -/
def stylesText (n : Nat) : Str := "[V4+ Styles]\n".toList ++ styleFormat ++ (List.range n).flatMap styleLine

/-- `format_time`, script_sections.rs lines 111-118. -/
def formatTime (cs : Nat) : Str :=
  showNat (cs / 360000) ++ ':' :: showPad 2 (cs % 360000 / 6000) ++ ':' :: showPad 2 (cs % 6000 / 100) ++ '.' :: showPad 2 (cs % 100)

/-- `u32::try_from(n).unwrap_or(u32::MAX)`. -/
def clip32 (n : Nat) : Nat := if n < 2 ^ 32 then n else 2 ^ 32 - 1

/-- The text every event begins from, dialogue.rs line 24. -/
def base (i : Nat) : Str := "This is dialogue line number ".toList ++ showNat (i + 1)

/-- `patterns[event_index % patterns.len()]`. -/
def pick (l : List Str) (i : Nat) : Str := l.getD (i % l.length) []

/-- `generate_anime_dialogue`, dialogue.rs lines 57-78. -/
def animeText (i : Nat) (b : Str) : Str :=
  pick [r"{\an8\pos(960,80)\fad(250,250)\bord3\shad0\c&H00FFFFFF&\3c&H00FF8C00&}".toList ++ b,
    r"{\an5\pos(960,540)\fad(500,500)\alpha&H80&\bord2\c&H00E6E6FA&\3c&H00483D8B&}".toList ++ b,
    r"{\an2\pos(960,980)\fad(300,800)\b1\bord4\shad3\c&H0000FFFF&\3c&H000000FF&\4c&H00000000&\t(0,2000,\c&H00FF0000&)}".toList ++ b,
    r"{\an7\pos(200,400)\fad(200,200)\bord2\c&H00FFFFFF&\3c&H00800080&}".toList ++ b] i

/-- `generate_movie_dialogue`, dialogue.rs lines 80-93. -/
def movieText (i : Nat) (b : Str) : Str :=
  pick [b, r"{\i1}".toList ++ b ++ r"{\i0}".toList, r"{\b1}".toList ++ b ++ r"{\b0}".toList, r"{\an8}".toList ++ b] i

/-- The words with their timing, dialogue.rs lines 106-109. -/
def karaokeWords : Nat → List Str → Str
  | _, [] => []
  | i, w :: l => r"{\k".toList ++ showNat (50 + i * 30) ++ ['}'] ++ w ++ [' '] ++ karaokeWords (i + 1) l

/-- `generate_karaoke_dialogue`, dialogue.rs lines 95-117. -/
def karaokeText (i : Nat) (b : Str) : Str :=
  r"{\an5\pos(960,540)\fad(200,200)\b1\bord2\shad1\c&H00FFFFFF&\3c&H00FF6347&}".toList ++ karaokeWords 0 (FormatDoc.splitWs b) ++
    if i % 3 = 0 then r"{\t(2000,3000,\fscx120\fscy120\alpha&HFF&)}".toList else []

/-- The table of signs, dialogue.rs lines 121-132. -/
def signs : List (Str × Str) :=
  [(r"{\an8\pos(960,100)".toList, "RESTAURANT".toList), (r"{\an9\pos(1700,150)".toList, "EXIT".toList),
   (r"{\an7\pos(220,120)".toList, "HOTEL".toList), (r"{\an5\pos(960,540)".toList, "NEWS FLASH".toList),
   (r"{\an2\pos(960,950)".toList, "SUBWAY".toList), (r"{\an4\pos(100,540)".toList, "STORE".toList)]

/-- `generate_sign_dialogue`, dialogue.rs lines 119-147. -/
def signText (i : Nat) (b : Str) : Str :=
  let p := signs.getD (i % signs.length) ([], [])
  let t := if containsStr "number".toList b then p.2 ++ ": ".toList ++ replaceAll "dialogue line".toList "sign".toList b else p.2
  p.1 ++ r"\fad(500,500)\bord3\shad2\c&H00000000&\3c&H00FFFFFF&\fn{Arial}\fs36}".toList ++ t

/-- `generate_educational_dialogue`, dialogue.rs lines 149-173. -/
def educationalText (i : Nat) (b : Str) : Str :=
  pick [r"{\an2\pos(960,900)\fad(200,200)\bord1\c&H00FFFFFF&}".toList ++ b ++ " - This explains the concept in detail with proper formatting.".toList,
    r"{\an8\pos(960,150)\fad(200,200)\b1\c&H0000FFFF&}Question ".toList ++ showNat (i + 1) ++ ": ".toList ++ b,
    r"{\an7\pos(100,400)\fad(200,200)\i1\c&H0000FF00&}Answer: ".toList ++ b,
    r"{\an5\pos(960,540)\fad(200,200)\bord2\c&H00FFFFFF&\3c&H000080FF&}Definition: ".toList ++ b,
    r"{\an1\pos(100,900)\fad(200,200)\c&H00FFFF00&}Example: ".toList ++ b,
    r"{\an9\pos(1700,100)\fad(200,200)\b1\c&H00FF8000&}Summary: ".toList ++ b] i

/-- `generate_dialogue_text`, dialogue.rs lines 22-55. -/
def dialogueText (l : Level) (i : Nat) : Str :=
  match l with
  | .simple => base i
  | .moderate => r"{\b1}".toList ++ base i ++ r"{\b0} with {\i1}some{\i0} formatting".toList
  | .complex => r"{\pos(100,200)\fad(500,500)\b1\i1\c&H00FF00&}".toList ++ base i ++
      r"{\b0\i0\c&HFFFFFF&} with {\t(0,1000,\frz360)}animation{\t(1000,2000,\frz0)}".toList
  | .extreme => r"{\pos(100,200)\move(100,200,500,400)\fad(300,300)\t(0,500,\fscx120\fscy120)\t(500,1000,\fscx100\fscy100)\b1\i1\u1\s1\bord2\shad2\c&H00FF00&\3c&H0000FF&\4c&H000000&\alpha&H00\3a&H80}".toList ++ base i ++
      r"{\b0\i0\u0\s0\r} {\k50}with {\k30}karaoke {\k40}timing {\k60}and {\k45}complex {\k35}animations".toList
  | .anime => animeText i (base i)
  | .movie => movieText i (base i)
  | .karaoke => karaokeText i (base i)
  | .sign => signText i (base i)
  | .educational => educationalText i (base i)

/-- One event line, script_sections.rs lines 89-106. -/
def eventLine (g : Gen) (i : Nat) : Str :=
  "Dialogue: 0,".toList ++ formatTime (clip32 (i * 3000)) ++ [','] ++ formatTime (clip32 (i * 3000 + 2500)) ++ [','] ++
    (if 1 < g.styles then "Style".toList ++ showNat (i % g.styles) else "Default".toList) ++ ",Speaker,0,0,0,,".toList ++
    dialogueText g.level i ++ ['\n']

/-- `generate_events`, script_sections.rs lines 82-109. -/
def eventsText (g : Gen) : Str := "[Events]\n".toList ++ eventFormat ++ (List.range g.events).flatMap (eventLine g)

/-- `ScriptGenerator::generate`, script_sections.rs lines 21-39. -/
def generate (g : Gen) : Str := info g.title ++ ['\n'] ++ stylesText g.styles ++ ['\n'] ++ eventsText g

/-- The text of an event of the script with problems, scripts.rs lines 81-92. -/
def issueText (i : Nat) : Str :=
  if i % 10 = 0 then r"Text with {\} empty tag and {\invalidtag} unknown tag".toList
  else if i % 7 = 0 then r"{\pos(100,200)\move(100,200,500,400,0,5000)\t(0,1000,\frz360)\t(1000,2000,\fscx200\fscy200)\t(2000,3000,\alpha&HFF&)\t(3000,4000,\alpha&H00&)\t(4000,5000,\c&HFF0000&)}Performance heavy animation".toList
  else "Normal dialogue line ".toList ++ showNat (i + 1)

/-- `0:MM:SS` with the hundredths given, scripts.rs lines 78-79 and 135-139. -/
def minuteTime (s : Nat) (frac : Str) : Str := "0:".toList ++ showPad 2 (s / 60) ++ [':'] ++ showPad 2 (s % 60) ++ frac

/-- `generate_script_with_issues`, scripts.rs lines 51-102. -/
def withIssues (n : Nat) : Str :=
  "[Script Info]\nTitle: Test Script\n\n[V4+ Styles]\n".toList ++ styleFormat ++
    "Style: Default,Arial,20,&H00FFFFFF&,&H000000FF&,&H00000000&,&H00000000&,0,0,0,0,100,100,0,0,1,2,0,2,10,10,10,1\n\n[Events]\n".toList ++
    eventFormat ++ (List.range n).flatMap fun i =>
      "Dialogue: 0,".toList ++ minuteTime i ".00".toList ++ [','] ++ minuteTime i ".50".toList ++ ",Default,Speaker,0,0,0,,".toList ++
        issueText i ++ ['\n']

/-- `generate_overlapping_script`, scripts.rs lines 104-146. -/
def overlapping (n : Nat) : Str :=
  "[V4+ Styles]\n".toList ++ styleFormat ++
    "Style: Default,Arial,20,&H00FFFFFF,&H000000FF,&H00000000,&H80000000,0,0,0,0,100,100,0,0,1,2,2,2,10,10,10,1\n\n[Events]\n".toList ++
    eventFormat ++ (List.range n).flatMap fun i =>
      "Dialogue: 0,".toList ++ minuteTime (i * 2) ".00".toList ++ [','] ++ minuteTime (i * 2 + 5) ".00".toList ++ ",Default,,0,0,0,,Event ".toList ++
        showNat i ++ " text\n".toList

end Verif.Generators
