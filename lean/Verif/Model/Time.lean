import Verif.Model.Str
/-!
# ASS time strings — `crates/ass-core/utils/time.rs`
-/
namespace Verif.Time
open Verif

/-- Outcome of `parse_ass_time`.  `overflow` is the arithmetic overflow of the
final `u32` expression (a panic with overflow checks). -/
inductive Res
  | ok (centiseconds : Nat)
  | err
  | overflow
  deriving DecidableEq, Repr

/-- `frac_str.bytes().all(|b| b.is_ascii_digit())`, time.rs line 56. -/
def allDigits (s : Str) : Bool := s.all (fun c => '0' ≤ c && c ≤ '9')

/-- time.rs lines 54-73: the value after the seconds' dot.  Only `parts[1]` is
looked at; further dot-separated parts are ignored. -/
def parseFrac : List Str → Option Nat
  | [] => some 0
  | frac :: _ => if frac.isEmpty || !allDigits frac then none else parseU32 frac

/-- `parse_ass_time`, time.rs lines 33-87.  Error messages are dropped. -/
def parseAssTime (s : Str) : Res :=
  match splitOn ':' s with
  | [h, m, sec] =>
    match parseU32 h with
    | none => .err
    | some hours =>
    match parseU32 m with
    | none => .err
    | some minutes =>
    match splitOn '.' sec with
    | [] => .err
    | s0 :: rest =>
    match parseU32 s0 with
    | none => .err
    | some seconds =>
    match parseFrac rest with
    | none => .err
    | some cs =>
      if minutes ≥ 60 then .err
      else if seconds ≥ 60 then .err
      else
        let total := hours * 360000 + minutes * 6000 + seconds * 100 + cs
        if total < u32Bound then .ok total else .overflow
  | _ => .err

/-- `format_ass_time`, time.rs lines 93-102. -/
def formatAssTime (centiseconds : Nat) : Str :=
  let hours := centiseconds / 360000
  let r := centiseconds % 360000
  let minutes := r / 6000
  let r := r % 6000
  let seconds := r / 100
  let cs := r % 100
  showNat hours ++ ':' :: showPad 2 minutes ++ ':' :: showPad 2 seconds ++ '.' :: showPad 2 cs

end Verif.Time
