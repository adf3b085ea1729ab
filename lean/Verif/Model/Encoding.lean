import Verif.Model.Stream
import Verif.Model.Utf8
/-!
# Encodings — `crates/ass-core/utils/utf8/{validation,encoding}/*.rs`, `utils/errors/encoding/validation.rs`,
`tokenizer/simd/utf8.rs`
-/
namespace Verif.Encoding
open Verif
open Verif.Stream (decode decodeOne)
open Verif.Utf8 (detectBom isControl BomType)

/-- Up to where the bytes are valid, from the offset on: `None` is a success of `str::from_utf8`, `Some` is `valid_up_to` of its
error (std behaviour; `fuel = length` suffices). -/
def invalidAt : Nat → Nat → List Nat → Option Nat
  | _, _, [] => none
  | 0, off, _ :: _ => some off
  | k + 1, off, b => match decodeOne b with
    | some (c, r) => invalidAt k (off + c.utf8Size) r
    | none => some off

/-- `validate_utf8`, validate.rs lines 38-51, and `validate_utf8_detailed`, errors/encoding/validation.rs lines 26-39: the
position in the error, without the message. -/
def validateUtf8 (b : List Nat) : Option Nat := invalidAt b.length 0 b

/-- The loop of `validate_utf8_simd_impl`, simd/utf8.rs lines 33-47: whether all whole chunks are ASCII, and what remains. -/
def asciiChunks : Nat → List Nat → Bool × List Nat
  | 0, b => (true, b)
  | f + 1, b => if 16 ≤ b.length then
      if (b.take 16).any (fun x => 128 ≤ x) then (false, b) else asciiChunks f (b.drop 16)
    else (true, b)

/-- `validate_utf8_batch`, simd/utf8.rs lines 19-48; bytes are below 256. -/
def validateBatch (b : List Nat) : Option Nat :=
  if 16 ≤ b.length then
    match asciiChunks b.length b with
    | (false, _) => validateUtf8 b
    | (true, r) => validateUtf8 r
  else validateUtf8 b

/-- `String::from_utf8_lossy` (std behaviour): `bad` says how many bytes are replaced by one U+FFFD where no character begins
(at least one). -/
def lossy (bad : List Nat → Nat) : Nat → List Nat → Str
  | _, [] => []
  | 0, _ :: _ => []
  | k + 1, b => match decodeOne b with
    | some (c, r) => c :: lossy bad k r
    | none => Char.ofNat 0xFFFD :: lossy bad k (b.drop (max 1 (bad b)))

/-- `count_replacement_chars`, recovery.rs lines 63-65. -/
def countReplacement (s : Str) : Nat := s.count (Char.ofNat 0xFFFD)

/-- `recover_utf8`, recovery.rs lines 38-47. -/
def recoverUtf8 (bad : List Nat → Nat) (b : List Nat) : Str × Nat :=
  match decode b with
  | some s => (s, 0)
  | none => (lossy bad b.length b, countReplacement (lossy bad b.length b))

/-- `is_valid_ass_char`, errors/encoding/validation.rs lines 75-86, and the test in `is_valid_ass_text`, validate.rs lines 69-74. -/
def validChar (c : Char) : Bool :=
  (33 ≤ c.toNat && c.toNat ≤ 126) || c == ' ' || c == '\t' || c == '\n' || c == '\r' || (!(c.toNat < 128) && !isControl c)

/-- `is_valid_ass_text`, validate.rs lines 67-76. -/
def validText (s : Str) : Bool := s.all validChar

/-- `validate_ass_text_content`, errors/encoding/validation.rs lines 57-69: the position and the character in the error. -/
def contentError : Nat → Str → Option (Nat × Char)
  | _, [] => none
  | off, c :: s => if validChar c then contentError (off + c.utf8Size) s else some (off, c)

/-- `validate_bom_handling`, errors/encoding/validation.rs lines 104-138: whether it succeeds. -/
def bomHandling (b : List Nat) : Bool :=
  if b.take 3 = [0xEF, 0xBB, 0xBF] then true
  else if b.take 2 = [0xFF, 0xFE] ∨ b.take 2 = [0xFE, 0xFF] then false
  else if b.take 4 = [0xFF, 0xFE, 0, 0] ∨ b.take 4 = [0, 0, 0xFE, 0xFF] then false
  else if b.take 2 = [0xEF, 0xBB] then false
  else if b.head? = some 0xEF ∧ (b.length = 1 ∨ (b.drop 1).head? ≠ some 0xBB) then false
  else true

/-- The name of an encoding, as far as `detect_encoding` gives it. -/
inductive Name where
  | bom (t : BomType) | utf8 | windows1252 | ascii
deriving DecidableEq, Repr

/-- `detect_encoding`, encoding/detection.rs lines 36-58 and 110-120, without the confidence. -/
def detectEncoding (b : List Nat) : Name :=
  match detectBom b with
  | some (t, _) => .bom t
  | none => match decode b with
    | some _ => .utf8
    | none => if b.any (fun x => 128 ≤ x) then .windows1252 else .ascii

end Verif.Encoding
