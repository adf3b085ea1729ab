import Verif.Model.Bytes
/-!
# More of `str`: lines, searching and splitting with string patterns (std behaviour, trusted as documented)
-/
namespace Verif

/-- `strip_suffix('\r')`, or the text itself. -/
def stripCr (s : Str) : Str := if s.getLast? = some '\r' then s.dropLast else s

/-- `str::lines`: pieces ended by `\n` or `\r\n`; a last piece without a line feed is kept as it is unless
it is empty.  `cur` is the line being read, reversed. -/
def linesAux : Str → Str → List Str
  | [], [] => []
  | cur, [] => [cur.reverse]
  | cur, c :: s => if c = '\n' then stripCr cur.reverse :: linesAux [] s else linesAux (c :: cur) s

/-- `str::lines`. -/
def lines (s : Str) : List Str := linesAux [] s

/-- `str::split_once(pat)` for a string pattern: the text before and after the first occurrence. -/
def splitOnceStr (pat : Str) : Str → Option (Str × Str)
  | [] => if pat = [] then some ([], []) else none
  | c :: s =>
    match stripPrefix pat (c :: s) with
    | some r => some ([], r)
    | none =>
      match splitOnceStr pat s with
      | some (a, b) => some (c :: a, b)
      | none => none

/-- `str::contains(pat)` for a string pattern. -/
def containsStr (pat s : Str) : Bool := (splitOnceStr pat s).isSome

/-- `str::split(pat)` for a non-empty string pattern; `fuel = length` suffices. -/
def splitStrAux (pat : Str) : Nat → Str → List Str
  | 0, s => [s]
  | k + 1, s =>
    match splitOnceStr pat s with
    | none => [s]
    | some (a, b) => a :: splitStrAux pat k b

/-- `str::split(pat)` for a non-empty string pattern. -/
def splitStr (pat s : Str) : List Str := splitStrAux pat s.length s

/-- `[..].join(sep)`. -/
def joinStr (sep : Str) : List Str → Str
  | [] => []
  | [s] => s
  | s :: l => s ++ sep ++ joinStr sep l

/-- `str::starts_with` for a string pattern. -/
def startsWith (p s : Str) : Bool := (stripPrefix p s).isSome

/-- `str::ends_with` for a string pattern. -/
def endsWith (p s : Str) : Bool := startsWith p.reverse s.reverse

end Verif
