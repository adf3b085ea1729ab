/-!
# Specification: ASS colour spellings
-/
namespace Verif.Spec

/-- Value of one hexadecimal digit, by table. -/
def hexDigit (c : Char) : Option Nat :=
  [('0',0),('1',1),('2',2),('3',3),('4',4),('5',5),('6',6),('7',7),('8',8),('9',9),
   ('a',10),('b',11),('c',12),('d',13),('e',14),('f',15),
   ('A',10),('B',11),('C',12),('D',13),('E',14),('F',15)].lookup c

/-- Two hexadecimal digits denoting the byte `v`. -/
def HexByte (s : List Char) (v : Nat) : Prop :=
  ∃ c d x y, s = [c, d] ∧ hexDigit c = some x ∧ hexDigit d = some y ∧ v = 16 * x + y

/-- The six documented decorations around the hexadecimal payload. -/
def Decorated (payload s : List Char) : Prop :=
  s = '&' :: 'H' :: payload ++ ['&'] ∨ s = '&' :: 'h' :: payload ++ ['&'] ∨
  s = '&' :: 'H' :: payload ∨ s = '&' :: 'h' :: payload ∨
  s = '0' :: 'x' :: payload ∨ s = payload

end Verif.Spec
