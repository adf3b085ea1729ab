import Verif.Model.Bytes
/-!
# UU coding — `crates/ass-core/utils/uu.rs` and
`crates/ass-editor/commands/fonts_graphics_commands/encoding.rs`

Bytes are natural numbers below 256; every `u8` operation that can leave that range is
reduced modulo 256 explicitly.
-/
namespace Verif.UU
open Verif

/-- `u8::wrapping_sub(b' ')`. -/
def minus32 (b : Nat) : Nat := (b + 224) % 256

/-- Decode one 4-character group, uu.rs lines 81-99 (missing characters are spaces).
`u8 << k` drops the high bits. -/
def decodeGroup (g : List Nat) : List Nat :=
  let c1 := minus32 (g.getD 0 32)
  let c2 := minus32 (g.getD 1 32)
  let c3 := minus32 (g.getD 2 32)
  let c4 := minus32 (g.getD 3 32)
  [(c1 * 4 % 256) ||| (c2 / 16), (c2 % 16 * 16) ||| (c3 / 4), (c3 % 4 * 64) ||| c4]

/-- `str::trim_end_matches(['\n', '\r'])`. -/
def trimEol (s : Str) : Str := (s.reverse.dropWhile (fun c => c == '\n' || c == '\r')).reverse

/-- `decode_uu_data`, uu.rs lines 40-107.  Never fails in the code either. -/
def decode : List Str → List Nat
  | [] => []
  | line :: rest =>
    let l := trimEol (trimStart line)
    if l = [] then decode rest
    else if l = ['e', 'n', 'd'] || (stripPrefix ['e', 'n', 'd', ' '] l).isSome then []
    else match utf8 l with
      | [] => decode rest
      | b0 :: data =>
        let n := minus32 b0
        if n > 45 then decode rest
        else if n = 0 then []
        else ((chunks 4 data).flatMap decodeGroup).take n ++ decode rest

/-- Encode one group of one to three bytes, encoding.rs lines 26-45 (as character codes). -/
def encodeGroup (g : List Nat) : List Nat :=
  let b0 := g.getD 0 0
  let b1 := g.getD 1 0
  let b2 := g.getD 2 0
  [32 + b0 / 4, 32 + ((b0 % 4 * 16) ||| (b1 / 16))] ++
  (if g.length > 1 then [32 + ((b1 % 16 * 4) ||| (b2 / 64))] else [32 + b1 % 16 * 4]) ++
  (if g.length > 2 then [32 + b2 % 64] else if g.length > 1 then [32] else [])

/-- One output line, encoding.rs lines 19-48.  `u8 as char` is the character with that code. -/
def encodeLine (chunk : List Nat) : Str :=
  Char.ofNat (32 + chunk.length) :: ((chunks 3 chunk).flatMap encodeGroup).map Char.ofNat

/-- `uuencode_data`, encoding.rs lines 11-56. -/
def encode (filename : Str) (data : List Nat) : List Str :=
  ("begin 644 ".toList ++ filename) :: (chunks 45 data).map encodeLine ++ [['`'], ['e', 'n', 'd']]

end Verif.UU
