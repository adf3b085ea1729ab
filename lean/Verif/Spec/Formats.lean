/-!
# Specification: override blocks and subtitle time stamps
-/
namespace Verif.Spec.Fmt

/-- The text holds no `{` followed later by a `}`. -/
def NoBlock (s : List Char) : Prop := ∀ a b c, s ≠ a ++ '{' :: b ++ '}' :: c

/-- `Stripped s t`: `t` is what remains of `s` when every block — an opening brace up to the next closing
brace — is taken out.  An opening brace that is never closed stays, with what follows. -/
inductive Stripped : List Char → List Char → Prop
  | plain (s) (h : '{' ∉ s) : Stripped s s
  | unclosed (a b) (ha : '{' ∉ a) (hb : '}' ∉ b) : Stripped (a ++ '{' :: b) (a ++ '{' :: b)
  | block (a b c c') (ha : '{' ∉ a) (hb : '}' ∉ b) (h : Stripped c c') :
      Stripped (a ++ '{' :: b ++ '}' :: c) (a ++ c')

/-- A two-digit number below 100. -/
def two (n : Nat) : List Char := [Nat.digitChar (n / 10), Nat.digitChar (n % 10)]

/-- A three-digit number below 1000. -/
def three (n : Nat) : List Char := Nat.digitChar (n / 100) :: two (n % 100)

/-- The hours: at least two digits. -/
def hours2 (h : Nat) : List Char := if h < 100 then two h else Nat.toDigits 10 h

/-- `HH:MM:SS<sep>mmm`, the time stamp of SRT (`sep = ','`) and WebVTT (`sep = '.'`). -/
def stamp (sep : Char) (h m s ms : Nat) : List Char :=
  hours2 h ++ ':' :: two m ++ ':' :: two s ++ sep :: three ms

/-- `MM:SS.mmm`, the short WebVTT time stamp. -/
def shortStamp (m s ms : Nat) : List Char := two m ++ ':' :: two s ++ '.' :: three ms

/-- `H:MM:SS.cc`, the ASS time stamp. -/
def assStamp (h m s cs : Nat) : List Char :=
  Nat.toDigits 10 h ++ ':' :: two m ++ ':' :: two s ++ '.' :: two cs

end Verif.Spec.Fmt
