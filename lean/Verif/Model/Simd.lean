import Verif.Model.Tokenizer
/-!
# Accelerated scanning — `crates/ass-core/tokenizer/simd/{delimiters,hex}.rs`

Bytes are numbers below 256.  The vector operations of the crate `wide` (`splat`, `cmp_eq`, `|`, `move_mask`) and
`trailing_zeros` are modelled together as "the first byte of the chunk that satisfies the test".
-/
namespace Verif.Simd
open Verif

/-- The delimiter bytes, delimiters.rs lines 48-55 and 94. -/
def isDelimByte (b : Nat) : Bool := b == 58 || b == 44 || b == 123 || b == 125 || b == 91 || b == 93 || b == 10 || b == 13

/-- `scan_delimiters_scalar`, delimiters.rs lines 91-99. -/
def scanScalar : List Nat → Option Nat
  | [] => none
  | b :: r => if isDelimByte b then some 0 else (scanScalar r).map (· + 1)

/-- `scan_delimiters_simd_impl`, delimiters.rs lines 47-88, on what remains from chunk number `k` on. -/
def scanChunks : Nat → Nat → List Nat → Option Nat
  | 0, _, _ => none
  | f + 1, k, b =>
    if 16 ≤ b.length then
      match (b.take 16).findIdx? isDelimByte with
      | some i => some (k * 16 + i)
      | none => scanChunks f (k + 1) (b.drop 16)
    else if b ≠ [] then (scanScalar b).map (k * 16 + ·)
    else none

/-- `scan_delimiters`, delimiters.rs lines 32-43. -/
def scanDelimiters (text : Str) : Option Nat :=
  if 16 ≤ (utf8 text).length then scanChunks (utf8 text).length 0 (utf8 text) else scanScalar (utf8 text)

/-- The value of a digit, hex.rs lines 111-116. -/
def byteDigit (b : Nat) : Option Nat :=
  if 48 ≤ b ∧ b ≤ 57 then some (b - 48)
  else if 65 ≤ b ∧ b ≤ 70 then some (b - 65 + 10)
  else if 97 ≤ b ∧ b ≤ 102 then some (b - 97 + 10)
  else none

/-- The loop of `parse_hex_scalar_direct`, hex.rs lines 108-123. -/
def hexLoop : Nat → List Nat → Option Nat
  | acc, [] => some acc
  | acc, b :: r => match byteDigit b with
    | none => none
    | some d => if acc * 16 < u32Bound ∧ acc * 16 + d < u32Bound then hexLoop (acc * 16 + d) r else none

/-- `parse_hex_u32`, hex.rs lines 31-44, with the feature `simd`: strings of up to eight bytes never reach the vector code. -/
def parseHexU32 (s : Str) : Option Nat :=
  if s = [] ∨ byteLen s > 8 then none
  else if byteLen s ≥ 4 then hexLoop 0 (utf8 s)
  else parseUnsigned 16 u32Bound s

end Verif.Simd
