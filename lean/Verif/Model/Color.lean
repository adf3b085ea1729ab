import Verif.Model.Bytes
/-!
# Colours — `crates/ass-core/utils/color.rs`
-/
namespace Verif.Color
open Verif

structure Rgba where
  r : Nat
  g : Nat
  b : Nat
  a : Nat
  deriving DecidableEq, Repr

/-- `str::ends_with('&')`. -/
def endsWithAmp (s : Str) : Bool := s.getLast? == some '&'

/-- Choice of `hex_part`, color.rs lines 42-57 (`none` = the error return).  The slice
`trimmed[2..len-1]` is exact because `&`, `H`/`h` and `&` are one byte each and the
string has at least three characters in that branch. -/
def hexPart (t : Str) : Option Str :=
  if ((stripPrefix ['&', 'H'] t).isSome || (stripPrefix ['&', 'h'] t).isSome) && endsWithAmp t then
    some ((t.drop 2).dropLast)
  else match stripPrefix ['&', 'H'] t with
    | some p => some p
    | none => match stripPrefix ['&', 'h'] t with
      | some p => some p
      | none => match stripPrefix ['0', 'x'] t with
        | some p => some p
        | none => if t.all isHexDigit then some t else none

/-- `parse_bgr_color`, color.rs lines 39-87 (errors become `none`); `& 0xFF` and `>> 8k`
are `% 256` and `/ 256^k`. -/
def parseBgrColor (s : Str) : Option Rgba :=
  match hexPart (trim s) with
  | none => none
  | some p =>
    match parseUnsigned 16 u32Bound p with
    | none => none
    | some v =>
      if byteLen p = 6 then some ⟨v % 256, v / 256 % 256, v / 65536 % 256, 0⟩
      else if byteLen p = 8 then
        some ⟨v % 256, v / 256 % 256, v / 65536 % 256, v / 16777216 % 256⟩
      else none

end Verif.Color
