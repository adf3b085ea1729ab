/-!
# Strings

Rust `&str` values are modelled as lists of characters.  Byte offsets are sums of
UTF-8 sizes.  The functions below model the pieces of Rust's standard library
that the modelled code calls (trusted: they follow the std documentation).
-/
namespace Verif

/-- A Rust string slice, as the list of its characters. -/
abbrev Str := List Char

/-- UTF-8 length (`str::len`). -/
def byteLen (s : Str) : Nat := (s.map Char.utf8Size).sum

/-- `char::is_whitespace` (the Unicode `White_Space` property). -/
def isWs (c : Char) : Bool :=
  let n := c.toNat
  (9 ≤ n && n ≤ 13) || n == 0x20 || n == 0x85 || n == 0xA0 || n == 0x1680 ||
  (0x2000 ≤ n && n ≤ 0x200A) || n == 0x2028 || n == 0x2029 || n == 0x202F ||
  n == 0x205F || n == 0x3000

/-- `str::trim_start`. -/
def trimStart (s : Str) : Str := s.dropWhile isWs

/-- `str::trim_end`. -/
def trimEnd (s : Str) : Str := (s.reverse.dropWhile isWs).reverse

/-- `str::trim`. -/
def trim (s : Str) : Str := trimEnd (trimStart s)

/-- `str::split(sep)` for a character separator; never the empty list. -/
def splitOn (sep : Char) : Str → List Str
  | [] => [[]]
  | c :: cs =>
    if c = sep then [] :: splitOn sep cs
    else match splitOn sep cs with
      | [] => [[c]]
      | h :: t => (c :: h) :: t

/-- `str::split_once(sep)` for a character separator. -/
def splitOnce (sep : Char) : Str → Option (Str × Str)
  | [] => none
  | c :: cs =>
    if c = sep then some ([], cs)
    else match splitOnce sep cs with
      | none => none
      | some (a, b) => some (c :: a, b)

/-- `str::splitn(n, sep)`: at most `n` pieces, the last one unsplit. -/
def splitn (sep : Char) : Nat → Str → List Str
  | 0, _ => []
  | 1, s => [s]
  | n + 2, s => match splitOnce sep s with
      | none => [s]
      | some (a, b) => a :: splitn sep (n + 1) b

/-- `str::strip_prefix` for a string pattern. -/
def stripPrefix : Str → Str → Option Str
  | [], s => some s
  | _ :: _, [] => none
  | p :: ps, c :: cs => if p = c then stripPrefix ps cs else none

/-- `u8::is_ascii_hexdigit` / `char::is_ascii_hexdigit`. -/
def isHexDigit (c : Char) : Bool :=
  ('0' ≤ c && c ≤ '9') || ('a' ≤ c && c ≤ 'f') || ('A' ≤ c && c ≤ 'F')

/-- `char::to_digit(radix)` for radix ≤ 36, as used by `from_str_radix`. -/
def digitVal (radix : Nat) (c : Char) : Option Nat :=
  let v :=
    if '0' ≤ c && c ≤ '9' then some (c.toNat - 48)
    else if 'a' ≤ c && c ≤ 'z' then some (c.toNat - 97 + 10)
    else if 'A' ≤ c && c ≤ 'Z' then some (c.toNat - 65 + 10)
    else none
  match v with
  | some d => if d < radix then some d else none
  | none => none

/-- Digits to a number, most significant first; `none` on a non-digit. -/
def digitsVal (radix : Nat) : Nat → Str → Option Nat
  | acc, [] => some acc
  | acc, c :: cs => match digitVal radix c with
      | some d => digitsVal radix (acc * radix + d) cs
      | none => none

/-- `uN::from_str_radix` for an unsigned type with `bound` values: optional
leading `+`, at least one digit, error when the value does not fit. -/
def parseUnsigned (radix bound : Nat) (s : Str) : Option Nat :=
  let ds := match s with
    | '+' :: t => t
    | t => t
  match ds with
  | [] => none
  | _ => match digitsVal radix 0 ds with
      | some v => if v < bound then some v else none
      | none => none

/-- Number of `u32` values. -/
abbrev u32Bound : Nat := 2 ^ 32

/-- `str::parse::<u32>()`. -/
def parseU32 (s : Str) : Option Nat := parseUnsigned 10 u32Bound s

/-- `format!("{n}")` for an unsigned integer. -/
def showNat (n : Nat) : Str := Nat.toDigits 10 n

/-- `format!("{n:0w$}")`: decimal, left-padded with zeros to width `w`. -/
def showPad (w n : Nat) : Str :=
  List.replicate (w - (showNat n).length) '0' ++ showNat n

end Verif
