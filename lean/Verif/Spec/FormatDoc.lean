import Verif.Spec.SrtDoc
import Verif.Spec.RoundTrip
import Verif.Model.SrtDoc
/-!
# Specification: SRT and WebVTT files, and the scripts they stand for
-/
namespace Verif.Spec.FormatDoc
open Verif.Spec.Fmt
open Verif.Spec.SrtDoc (White Lacks)
open Verif.Ast (Event Style)
open Verif.Spec.RoundTrip (Content)

/-- Bold, italics, underline, strike out. -/
inductive Sw
  | b | i | u | s
deriving DecidableEq, Repr

/-- The letter of the tag. -/
def Sw.letter : Sw → Char
  | b => 'b' | i => 'i' | u => 'u' | s => 's'

/-- A piece of a line: a character, or switching something on or off. -/
inductive Tok
  | ch (c : Char) | on (x : Sw) | off (x : Sw)
deriving DecidableEq, Repr

/-- How it is written in an event: `{\b1}`, `{\b0}`. -/
def Tok.ass : Tok → List Char
  | ch c => [c]
  | on x => ['{', '\\', x.letter, '1', '}']
  | off x => ['{', '\\', x.letter, '0', '}']

/-- How it is written in SRT and WebVTT: `<b>`, `</b>`. -/
def Tok.html : Tok → List Char
  | ch c => [c]
  | on x => ['<', x.letter, '>']
  | off x => ['<', '/', x.letter, '>']

/-- A line in an event, and in a file. -/
def ass (l : List Tok) : List Char := l.flatMap Tok.ass
def html (l : List Tok) : List Char := l.flatMap Tok.html

/-- A line of text: no line feed, no `{`, no `<`, no backslash, no carriage return at the end, and something else than
white space in it. -/
structure LineOk (l : List Tok) : Prop where
  chars : ∀ c, Tok.ch c ∈ l → c ≠ '\n' ∧ c ≠ '{' ∧ c ≠ '<' ∧ c ≠ '\\'
  last : l.getLast? ≠ some (.ch '\r')
  visible : ∃ t ∈ l, ∀ c, t = .ch c → ¬ White c

/-- Nothing struck out: WebVTT has no tag for it. -/
def NoStrike (l : List Tok) : Prop := Tok.on .s ∉ l ∧ Tok.off .s ∉ l

/-- The text of an event: its lines with `\N` between them. -/
def text : List (List Tok) → List Char
  | [] => []
  | [l] => ass l
  | l :: m :: ls => ass l ++ "\\N".toList ++ text (m :: ls)

/-- A text of one or more lines, without white space at its ends. -/
structure TextOk (L : List (List Tok)) : Prop where
  ne : L ≠ []
  lines : ∀ l ∈ L, LineOk l
  first : ∀ c, (text L).head? = some c → ¬ White c
  last : ∀ c, (text L).getLast? = some c → ¬ White c

/-- A time: hours, minutes, seconds, milliseconds. -/
structure Time where
  h : Nat
  m : Nat
  s : Nat
  ms : Nat
deriving DecidableEq, Repr

structure Time.Ok (t : Time) : Prop where
  m : t.m < 60
  s : t.s < 60
  ms : t.ms < 1000

/-- As in an event: hundredths, the rest is cut off. -/
def Time.ass (t : Time) : List Char := assStamp t.h t.m t.s (t.ms / 10)

/-- As in SRT. -/
def Time.srt (t : Time) : List Char := stamp ',' t.h t.m t.s t.ms

/-- As in WebVTT, where the hours may be left out. -/
def Time.Vtt (t : Time) (x : List Char) : Prop :=
  x = stamp '.' t.h t.m t.s t.ms ∨ (t.h = 0 ∧ x = shortStamp t.m t.s t.ms)

/-- A line that can stand in a file: no line feed in it, no carriage return at its end. -/
def RawLine (l : List Char) : Prop := '\n' ∉ l ∧ l.getLast? ≠ some '\r'

/-- Nothing but white space. -/
def Blank (l : List Char) : Prop := ∀ c ∈ l, White c

/-- The file of these lines, each ended by `eol`. -/
def file (eol : List Char) (ls : List (List Char)) : List Char := ls.flatMap (· ++ eol)

/-- The ends of lines in use. -/
def Eol (eol : List Char) : Prop := eol = ['\n'] ∨ eol = ['\r', '\n']

/-- What a subtitle says: its times and its lines; and where it stands, as an `\an` number. -/
structure Sub where
  start : Time
  stop : Time
  lines : List (List Tok)
  place : Option Nat := none

/-- The tag that gives the place. -/
def placeTag : Option Nat → List Char
  | some n => "{\\an".toList ++ Nat.toDigits 10 n ++ ['}']
  | none => []

/-- The text of its event. -/
def Sub.text (x : Sub) : List Char := placeTag x.place ++ FormatDoc.text x.lines

/-- The event it stands for. -/
def Sub.event (x : Sub) : Event :=
  { kind := .dialogue, layer := ['0'], start := x.start.ass, stop := x.stop.ass, style := "Default".toList, name := [],
    marginL := ['0'], marginR := ['0'], marginV := ['0'], marginT := none, marginB := none, effect := [], text := x.text }

structure Sub.Ok (x : Sub) : Prop where
  start : x.start.Ok
  stop : x.stop.Ok
  text : TextOk x.lines

/-- `SrtBlock x b`: the lines `b` are the subtitle `x` in an SRT file: its number (or whatever stands for it), its
times, its text. -/
def SrtBlock (x : Sub) (b : List (List Char)) : Prop :=
  x.place = none ∧ ∃ n, RawLine n ∧ ¬ Blank n ∧ b = n :: (x.start.srt ++ " --> ".toList ++ x.stop.srt) :: x.lines.map html

/-- A blank line. -/
def BlankLine (l : List Char) : Prop := RawLine l ∧ Blank l

/-- The lines of a file: subtitles, written as `B` says, a blank line after each but perhaps the last, and lines `G`
before each and (as many as the number says) after the last. -/
inductive File (B : Sub → List (List Char) → Prop) (G : List Char → Prop) : List Sub → List (List Char) → Nat → Prop
  | nil (t) (ht : ∀ l ∈ t, G l) : File B G [] t t.length
  | last (x b pre) (hx : B x b) (hp : ∀ l ∈ pre, G l) : File B G [x] (pre ++ b) 0
  | cons (x b xs g rest k pre) (hx : B x b) (hp : ∀ l ∈ pre, G l) (hg : BlankLine g) (h : File B G xs (g :: rest) k) :
      File B G (x :: xs) (pre ++ b ++ g :: rest) k

/-- An SRT file. -/
def SrtFile : List Sub → List (List Char) → Nat → Prop := File SrtBlock BlankLine

/-- A line between cues: blank, or a note. -/
def Between (l : List Char) : Prop :=
  RawLine l ∧ (Blank l ∨ ∃ w t, (∀ c ∈ w, White c) ∧ l = w ++ "NOTE".toList ++ t)

/-- The alignments of WebVTT and the `\an` numbers for them. -/
def places : List (List Char × Nat) :=
  [("start".toList, 1), ("left".toList, 1), ("center".toList, 2), ("middle".toList, 2), ("end".toList, 3), ("right".toList, 3)]

/-- The setting that gives the place. -/
inductive Setting : Option Nat → List Char → Prop
  | none : Setting none []
  | align (a n) (h : (a, n) ∈ places) : Setting (some n) (" align:".toList ++ a)

/-- The name of a cue: a line that is no time line, no note and not blank. -/
def CueName (l : List Char) : Prop := ¬ Between l ∧ RawLine l ∧ Lacks "-->".toList l

/-- A cue in a WebVTT file: a name or none, times and setting, text. -/
def VttBlock (x : Sub) (b : List (List Char)) : Prop :=
  (∀ l ∈ x.lines, NoStrike l) ∧
  ∃ n a z set, (n = [] ∨ ∃ l, n = [l] ∧ CueName l) ∧ x.start.Vtt a ∧ x.stop.Vtt z ∧ Setting x.place set ∧
    b = n ++ (a ++ " --> ".toList ++ z ++ set) :: x.lines.map html

/-- A WebVTT file after its first line. -/
def VttFile : List Sub → List (List Char) → Nat → Prop := File VttBlock Between

/-- As WebVTT files are written. -/
def Time.vtt (t : Time) : List Char := stamp '.' t.h t.m t.s t.ms

/-- The lines of an exported file: subtitles numbered from `n` on, a blank line after each; `f` writes times. -/
def numbered (f : Time → List Char) : Nat → List Sub → List (List Char)
  | _, [] => []
  | n, x :: l => Nat.toDigits 10 n :: (f x.start ++ " --> ".toList ++ f x.stop) :: x.lines.map html ++ [] :: numbered f (n + 1) l

/-- A time that an event can give: in hundredths, and not beyond the format's range. -/
def Time.Given (t : Time) : Prop := t.ms % 10 = 0 ∧ t.h < 2 ^ 32

/-- `Shows l xs`: the Dialogue events of `l` are the subtitles `xs`, in this order. -/
inductive Shows : List Verif.SrtDoc.Ev → List Sub → Prop
  | nil : Shows [] []
  | other (e l xs) (he : e.dialogue = false) (h : Shows l xs) : Shows (e :: l) xs
  | cons (e l x xs) (he : e.dialogue = true) (hp : x.place = none) (hs : e.start = x.start.ass) (hf : e.fin = x.stop.ass)
      (ht : e.text = FormatDoc.text x.lines) (g1 : x.start.Given) (g2 : x.stop.Given) (h : Shows l xs) : Shows (e :: l) (x :: xs)

/-- The style that imported scripts have. -/
def defaultStyle : Style :=
  { name := "Default".toList, parent := none, fontname := "Arial".toList, fontsize := "20".toList,
    primary := "&H00FFFFFF".toList, secondary := "&H000000FF".toList, outlineColour := "&H00000000".toList,
    back := "&H80000000".toList, bold := ['0'], italic := ['0'], underline := ['0'], strikeout := ['0'],
    scaleX := "100".toList, scaleY := "100".toList, spacing := ['0'], angle := ['0'], borderStyle := ['1'],
    outline := ['2'], shadow := ['0'], alignment := ['2'], marginL := "10".toList, marginR := "10".toList,
    marginV := "10".toList, marginT := none, marginB := none, encoding := ['1'], relativeTo := none }

/-- The script information that imported scripts have. -/
def infoFields (title : List Char) : List (List Char × List Char) :=
  [("Title".toList, title), ("ScriptType".toList, "v4.00+".toList), ("Collisions".toList, "Normal".toList),
   ("PlayDepth".toList, ['0']), ("Timer".toList, "100.0000".toList), ("Video Aspect Ratio".toList, ['0']),
   ("Video Zoom".toList, ['6']), ("Video Position".toList, ['0'])]

/-- The script an SRT file stands for. -/
def srtScript (l : List Sub) : List Content :=
  [.info (infoFields "Converted from SRT".toList), .styles [defaultStyle], .events (l.map Sub.event)]

/-- The script a WebVTT file stands for. -/
def vttScript (l : List Sub) : List Content :=
  [.info (infoFields "Converted from WebVTT".toList ++ [("PlayResX".toList, "640".toList), ("PlayResY".toList, "480".toList)]),
   .styles [defaultStyle], .events (l.map Sub.event)]

end Verif.Spec.FormatDoc
