import Verif.Model.Search
import Verif.Model.Update
/-!
# Section deltas on an editor document

`crates/ass-editor/core/document/delta_apply.rs`, and the part of `delta_undo.rs` and
`history/manager.rs` that decides what a delta leaves in the undo history.
-/
namespace Verif.DeltaApply
open Verif Verif.Pos Verif.Doc
open Verif.Update (Kind kind)

/-- `ScriptDeltaOwned`, parser/script/delta.rs lines 100-112, without the issues, which are not used. -/
structure Delta where
  added : List Str
  modified : List (Nat × Str)
  removed : List Nat
deriving DecidableEq, Repr

/-- Header of a section, delta_apply.rs lines 109-115. -/
def header : Kind → Str
  | .info => "[Script Info]".toList
  | .styles => "[V4+ Styles]".toList
  | .events => "[Events]".toList
  | .fonts => "[Fonts]".toList
  | .graphics => "[Graphics]".toList

/-- `find_section_start`, lines 107-125. -/
def findStart (text : Str) (k : Kind) : Option Nat := Search.find (header k) text

/-- One round of the loop of lines 141-148. -/
def nearer (content : Str) (fin : Nat) (k : Kind) : Nat :=
  match Search.find (header k) content with
  | some pos => if pos > 0 then min fin pos else fin
  | none => fin

/-- `find_section_end`, lines 128-151; `none` of `dropBytes` is the slicing panic of line 130. -/
def findEnd (text : Str) (k : Kind) : Outcome Nat :=
  match findStart text k with
  | none => .err
  | some start =>
    match dropBytes text start with
    | none => .panic
    | some content =>
      .ok (start + [Kind.info, .styles, .events, .fonts, .graphics].foldl (nearer content) (byteLen content))

/-- Insertion into a descending list. -/
def insertDesc (n : Nat) : List Nat → List Nat
  | [] => [n]
  | m :: l => if m ≤ n then n :: m :: l else m :: insertDesc n l

/-- `sort_by(|a, b| b.cmp(a))`, line 50. -/
def sortDesc : List Nat → List Nat
  | [] => []
  | n :: l => insertDesc n (sortDesc l)

/-- The section at `index` replaced by `t`, lines 70-78 (`none`: deleted, lines 55-62). -/
def changeSection (kinds : List Kind) (text : Str) (index : Nat) (t : Option Str) : Outcome Unit × Str :=
  match kinds[index]? with
  | none => (.ok (), text)
  | some k =>
    match findStart text k with
    | none => (.err, text)
    | some start =>
      match findEnd text k with
      | .ok fin =>
        match t with
        | none => deleteRaw text (Range.new start fin)
        | some t => replaceRaw text (Range.new start fin) t
      | .err => (.err, text)
      | .panic => (.panic, text)

/-- Both loops over sections, lines 52-64 and 67-80: the first failure ends them, the text keeps what was done
before. -/
def changeAll (kinds : List Kind) : List (Nat × Option Str) → Str → Outcome Unit × Str
  | [], text => (.ok (), text)
  | (i, t) :: l, text =>
    match changeSection kinds text i t with
    | (.ok _, text') => changeAll kinds l text'
    | (o, text') => (o, text')

/-- `ends_with('\n')`. -/
def endsLf (s : Str) : Bool := s.getLast? = some '\n'

/-- Additions, lines 83-98. -/
def addAll : List Str → Str → Str
  | [], text => text
  | t :: l, text =>
    let text1 := if text ≠ [] ∧ !endsLf text then text ++ ['\n'] else text
    let text2 := text1 ++ t
    addAll l (if endsLf t then text2 else text2 ++ ['\n'])

/-- `apply_script_delta_internal`, lines 43-104.  `Script::parse` never fails (it collects issues), so the
check of line 101 is left out. -/
def applyText (text : Str) (d : Delta) : Outcome Unit × Str :=
  match Parser.parse text with
  | none => (.err, text)
  | some sc =>
    match changeAll (sc.sections.map kind) ((sortDesc d.removed).map (fun i => (i, none))) text with
    | (.ok _, text1) =>
      match changeAll (sc.sections.map kind) (d.modified.map (fun p => (p.1, some p.2))) text1 with
      | (.ok _, text2) => (.ok (), addAll d.added text2)
      | (o, text2) => (o, text2)
    | (o, text1) => (o, text1)

/-- `CommandResult::success().content_changed`, command_result.rs line 49. -/
def successChanged : Bool := false

/-- `apply_script_delta`, lines 20-40.  The undo data (delta_undo.rs) is captured without changing anything;
`record_operation` (manager.rs lines 62-92) stores an entry only for results with changed content, and the
result passed on line 35 has none.  The entry is given by the caller because `Op` has no delta variant; it is
never stored. -/
def apply (doc : Doc) (d : Delta) (entry : Entry) : Outcome Unit × Doc :=
  match applyText doc.text d with
  | (.ok _, s) =>
    (.ok (), { text := s, hist := if successChanged then doc.hist.push entry else doc.hist })
  | (o, s) => (o, { doc with text := s })

end Verif.DeltaApply
