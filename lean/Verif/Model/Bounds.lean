import Verif.Model.Incremental
import Verif.Model.Bytes
import Verif.Model.Outcome
/-!
# The bounds of sections

`crates/ass-core/parser/incremental/section_bounds.rs`.  Slices of the source panic off a character boundary.
-/
namespace Verif.Bounds
open Verif
open Verif.Update (Kind)
open Verif.Incremental (headerOf)

/-- `source[..pos].rfind('\n').map_or(0, |p| p + 1)`, section_bounds.rs lines 34 and 71. -/
def lineStart (src : Str) (pos : Nat) : Outcome Nat :=
  match takeBytes src pos with
  | none => .panic
  | some p => .ok (byteLen (p.reverse.dropWhile (· ≠ '\n')).reverse)

/-- `find_section_header_start`, section_bounds.rs lines 11-37; `rfind` is a search in the reversed text. -/
def headerStart (src : Str) (hint : Nat) (k : Kind) : Outcome Nat :=
  let first := hint - (byteLen (headerOf k) + 100)
  match sliceBytes src first (min hint (byteLen src)) with
  | none => .panic
  | some t => match splitOnceStr (headerOf k).reverse t.reverse with
    | none => .err
    | some (_, b) => lineStart src (first + byteLen b.reverse)

/-- The smaller of the place found so far and another, section_bounds.rs line 64. -/
def least (m : Option Nat) (n : Nat) : Nat :=
  match m with
  | none => n
  | some x => min x n

/-- The loop of section_bounds.rs lines 61-66. -/
def nearest (t : Str) (ks : List Kind) : Option Nat :=
  ks.foldl (fun m k => match splitOnceStr (headerOf k) t with
    | none => m
    | some (a, _) => some (least m (byteLen a))) none

/-- `find_section_end`, section_bounds.rs lines 44-74; the kind of section is not looked at. -/
def sectionEnd (src : Str) (hint : Nat) : Outcome Nat :=
  match dropBytes src hint with
  | none => .panic
  | some t => match nearest t [.info, .styles, .events, .fonts, .graphics] with
    | none => .ok (byteLen src)
    | some pos => lineStart src (hint + pos)

end Verif.Bounds
