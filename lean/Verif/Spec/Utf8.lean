/-!
# Specification: text clean-up
-/
namespace Verif.Spec

/-- Every line break (CRLF, lone CR, LF) written as one LF. -/
def unixLines : List Char → List Char
  | [] => []
  | ['\r'] => ['\n']
  | '\r' :: '\n' :: r => '\n' :: unixLines r
  | '\r' :: c :: r => '\n' :: unixLines (c :: r)
  | c :: r => c :: unixLines r

/-- The byte order marks of the Unicode standard. -/
def bomBytes : List (List Nat) :=
  [[0xEF, 0xBB, 0xBF], [0xFF, 0xFE], [0xFE, 0xFF], [0xFF, 0xFE, 0, 0], [0, 0, 0xFE, 0xFF]]

end Verif.Spec
