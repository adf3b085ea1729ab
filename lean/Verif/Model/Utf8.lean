import Verif.Model.Bytes
import Verif.Model.StrX
/-!
# Text clean-up helpers — `crates/ass-core/utils/utf8/`
-/
namespace Verif.Utf8
open Verif

inductive BomType
  | utf8 | utf16le | utf16be | utf32le | utf32be
  deriving DecidableEq, Repr

/-- `BomType::signature`, bom.rs lines 44-52. -/
def BomType.signature : BomType → List Nat
  | .utf8 => [0xEF, 0xBB, 0xBF]
  | .utf16le => [0xFF, 0xFE]
  | .utf16be => [0xFE, 0xFF]
  | .utf32le => [0xFF, 0xFE, 0x00, 0x00]
  | .utf32be => [0x00, 0x00, 0xFE, 0xFF]

/-- `detect_bom`, bom.rs lines 157-172. -/
def detectBom (bytes : List Nat) : Option (BomType × Nat) :=
  if [0xFF, 0xFE, 0x00, 0x00].isPrefixOf bytes then some (.utf32le, 4)
  else if [0x00, 0x00, 0xFE, 0xFF].isPrefixOf bytes then some (.utf32be, 4)
  else if [0xEF, 0xBB, 0xBF].isPrefixOf bytes then some (.utf8, 3)
  else if [0xFF, 0xFE].isPrefixOf bytes then some (.utf16le, 2)
  else if [0xFE, 0xFF].isPrefixOf bytes then some (.utf16be, 2)
  else none

/-- `strip_bom`, bom.rs lines 111-141.  The four other byte order marks all return the
text unchanged, exactly like the final fall-through; they are kept as one branch.
`none` is the panic of slicing off a character boundary. -/
def stripBom (text : Str) : Option (Str × Bool) :=
  if [0xEF, 0xBB, 0xBF].isPrefixOf (utf8 text) then
    (dropBytes text 3).map (fun t => (t, true))
  else some (text, false)

/-- `normalize_line_endings`, normalization/line_endings.rs lines 31-33. -/
def normalizeLineEndings (text : Str) : Str :=
  replaceAll ['\r'] ['\n'] (replaceAll ['\r', '\n'] ['\n'] text)

/-- `char::is_control` (general category Cc). -/
def isControl (c : Char) : Bool := c.toNat < 0x20 || (0x7F ≤ c.toNat && c.toNat ≤ 0x9F)

/-- `remove_control_chars`, normalization/control.rs lines 22-29. -/
def removeControlChars (text : Str) : Str :=
  text.filter (fun c => !isControl c || c == '\n' || c == '\t' || c == '\r')

/-- `collapse_consecutive_spaces`, normalization/mod.rs lines 34-51
(`prev` is `prev_was_space`). -/
def collapseSpaces : Bool → Str → Str
  | _, [] => []
  | prev, c :: cs =>
    if c = ' ' then
      if prev then collapseSpaces true cs else c :: collapseSpaces true cs
    else c :: collapseSpaces false cs

/-- `normalize_whitespace`, normalization/whitespace.rs lines 24-41. -/
def normalizeWhitespace (text : Str) (collapse : Bool) : Str :=
  let r := text.map (fun c => if isWs c && c != '\n' && c != '\t' then ' ' else c)
  if collapse then collapseSpaces false r else r

/-- The `while` loop of `truncate_at_char_boundary`, validation/truncate.rs lines 41-44. -/
def findBoundary (text : Str) : Nat → Nat
  | 0 => 0
  | n + 1 => if isBoundary text (n + 1) then n + 1 else findBoundary text n

/-- `truncate_at_char_boundary`, validation/truncate.rs lines 36-47; `none` = panic. -/
def truncateAtCharBoundary (text : Str) (maxBytes : Nat) : Option (Str × Bool) :=
  if byteLen text ≤ maxBytes then some (text, false)
  else (takeBytes text (findBoundary text maxBytes)).map (fun t => (t, true))

/-- `trim_lines`, normalization/whitespace.rs lines 56-61. -/
def trimLines (text : Str) : Str := joinStr ['\n'] ((lines text).map trim)

end Verif.Utf8
