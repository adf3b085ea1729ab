import Verif.Model.Str
/-!
# Byte offsets into strings

`str::is_char_boundary`, slicing by byte offsets (which panics off a boundary) and
the UTF-8 encoding.  Std behaviour, trusted as documented.
-/
namespace Verif

/-- UTF-8 encoding of one character. -/
def utf8Enc (c : Char) : List Nat :=
  let n := c.toNat
  if n < 0x80 then [n]
  else if n < 0x800 then [0xC0 + n / 64, 0x80 + n % 64]
  else if n < 0x10000 then [0xE0 + n / 4096, 0x80 + n / 64 % 64, 0x80 + n % 64]
  else [0xF0 + n / 262144, 0x80 + n / 4096 % 64, 0x80 + n / 64 % 64, 0x80 + n % 64]

/-- `str::as_bytes`. -/
def utf8 (s : Str) : List Nat := s.flatMap utf8Enc

/-- `str::is_char_boundary`. -/
def isBoundary : Str → Nat → Bool
  | _, 0 => true
  | [], _ + 1 => false
  | c :: cs, n + 1 => if c.utf8Size ≤ n + 1 then isBoundary cs (n + 1 - c.utf8Size) else false

/-- `&s[..n]`; `none` is the panic (past the end or not on a boundary). -/
def takeBytes : Str → Nat → Option Str
  | _, 0 => some []
  | [], _ + 1 => none
  | c :: cs, n + 1 =>
    if c.utf8Size ≤ n + 1 then (takeBytes cs (n + 1 - c.utf8Size)).map (c :: ·) else none

/-- `&s[n..]`; `none` is the panic. -/
def dropBytes : Str → Nat → Option Str
  | s, 0 => some s
  | [], _ + 1 => none
  | c :: cs, n + 1 => if c.utf8Size ≤ n + 1 then dropBytes cs (n + 1 - c.utf8Size) else none

/-- `&s[a..b]`; `none` is the panic (`a > b`, past the end, or off a boundary). -/
def sliceBytes (s : Str) (a b : Nat) : Option Str :=
  if a ≤ b then (dropBytes s a).bind (fun t => takeBytes t (b - a)) else none

/-- `[T]::chunks(n)` with explicit fuel (`fuel = l.length` suffices for `n > 0`). -/
def chunksAux (n : Nat) : Nat → List α → List (List α)
  | 0, _ => []
  | _ + 1, [] => []
  | f + 1, l => l.take n :: chunksAux n f (l.drop n)

/-- `[T]::chunks(n)`. -/
def chunks (n : Nat) (l : List α) : List (List α) := chunksAux n l.length l

/-- `str::replace(pat, rep)` for a non-empty pattern: scan left to right; `skip`
characters of an already replaced occurrence are dropped. -/
def replaceAux (pat rep : Str) : Nat → Str → Str
  | _, [] => []
  | skip + 1, _ :: cs => replaceAux pat rep skip cs
  | 0, c :: cs =>
    match stripPrefix pat (c :: cs) with
    | some _ => rep ++ replaceAux pat rep (pat.length - 1) cs
    | none => c :: replaceAux pat rep 0 cs

/-- `str::replace(pat, rep)`, `pat` non-empty. -/
def replaceAll (pat rep s : Str) : Str := replaceAux pat rep 0 s

end Verif
