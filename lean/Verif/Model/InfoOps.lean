import Verif.Model.InfoCmd
import Verif.Model.Segment
import Verif.Model.Resolved
/-!
# The fluent operations on script properties — `crates/ass-editor/core/fluent/script_info.rs`

`set`, `get`, `delete` and `all` (lines 28-51) are the commands of `Verif.Model.InfoCmd`.  `str::to_lowercase` is the parameter `lower`.
-/
namespace Verif.InfoOps
open Verif
open Verif.Doc (Doc)

/-- `title`, lines 54-56. -/
def setTitle (t : Str) (d : Doc) : Outcome Unit × Doc := InfoCmd.set "Title".toList t d
/-- `get_title`, lines 59-61. -/
def getTitle (d : Doc) : Outcome (Option Str) := InfoCmd.get "Title".toList d
/-- `author`, lines 64-66. -/
def setAuthor (t : Str) (d : Doc) : Outcome Unit × Doc := InfoCmd.set "Original Script".toList t d
/-- `get_author`, lines 69-71. -/
def getAuthor (d : Doc) : Outcome (Option Str) := InfoCmd.get "Original Script".toList d

/-- `resolution`, lines 74-80. -/
def setResolution (w h : Nat) (d : Doc) : Outcome Unit × Doc :=
  match InfoCmd.set "PlayResX".toList (showNat w) d with
  | (.ok _, d') => InfoCmd.set "PlayResY".toList (showNat h) d'
  | o => o

/-- The parsing of lines 90-101. -/
def bothNumbers : Option Str → Option Str → Outcome (Option (Nat × Nat))
  | some w, some h =>
    match parseU32 w with
    | none => .err
    | some w => match parseU32 h with
      | none => .err
      | some h => .ok (some (w, h))
  | _, _ => .ok none

/-- `get_resolution`, lines 83-102. -/
def getResolution (d : Doc) : Outcome (Option (Nat × Nat)) :=
  match InfoCmd.get "PlayResX".toList d with
  | .ok w => match InfoCmd.get "PlayResY".toList d with
    | .ok h => bothNumbers w h
    | .err => .err
    | .panic => .panic
  | .err => .err
  | .panic => .panic

/-- `wrap_style`, lines 105-107. -/
def setWrap (n : Nat) (d : Doc) : Outcome Unit × Doc := InfoCmd.set "WrapStyle".toList (showNat n) d

/-- `get_wrap_style`, lines 110-117. -/
def getWrap (d : Doc) : Outcome (Option Nat) :=
  match InfoCmd.get "WrapStyle".toList d with
  | .ok none => .ok none
  | .ok (some s) => match Segment.parseU8 s with
    | some n => .ok (some n)
    | none => .err
  | .err => .err
  | .panic => .panic

/-- `scaled_border_and_shadow`, lines 120-123. -/
def setScaled (b : Bool) (d : Doc) : Outcome Unit × Doc :=
  InfoCmd.set "ScaledBorderAndShadow".toList (if b then "yes".toList else "no".toList) d

/-- `get_scaled_border_and_shadow`, lines 126-130. -/
def getScaled (lower : Str → Str) (d : Doc) : Outcome (Option Bool) :=
  match InfoCmd.get "ScaledBorderAndShadow".toList d with
  | .ok v => .ok (v.map (fun s => decide (lower s = "yes".toList) || decide (s = "1".toList)))
  | .err => .err
  | .panic => .panic

/-- `ScriptInfo::wrap_style`, ast/script_info/info.rs lines 133-137. -/
def parsedWrap (fields : List (Str × Str)) : Nat := ((Resolved.field fields "WrapStyle".toList).bind Segment.parseU8).getD 0

/-- `ScriptInfo::title`, info.rs lines 75-77. -/
def parsedTitle (fields : List (Str × Str)) : Str := (Resolved.field fields "Title".toList).getD "<untitled>".toList

end Verif.InfoOps
