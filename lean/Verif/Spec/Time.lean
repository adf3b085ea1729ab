/-!
# Specification: decimal numerals and ASS time strings

Nothing here refers to the model; only Lean's own `Nat.ofDigitChars` (value of a
digit string) is used.
-/
namespace Verif.Spec

/-- `ds` is a non-empty string of decimal digits with value `v`. -/
def Numeral (ds : List Char) (v : Nat) : Prop :=
  ds ≠ [] ∧ (∀ c ∈ ds, c.isDigit) ∧ Nat.ofDigitChars 10 ds 0 = v

/-- A number that fits in 32 bits, optionally written with a leading plus sign. -/
def U32Text (s : List Char) (v : Nat) : Prop :=
  v < 2 ^ 32 ∧ (Numeral s v ∨ ∃ ds, s = '+' :: ds ∧ Numeral ds v)

/-- What may follow the seconds: nothing (0 centiseconds), or a dot and a plain
numeral (centiseconds), or the same followed by a second dot and ignored text
that contains no colon. -/
def FracText (s : List Char) (v : Nat) : Prop :=
  (s = [] ∧ v = 0) ∨
  (∃ ds, s = '.' :: ds ∧ Numeral ds v ∧ v < 2 ^ 32) ∨
  (∃ ds junk, s = '.' :: ds ++ '.' :: junk ∧ ':' ∉ junk ∧ Numeral ds v ∧ v < 2 ^ 32)

/-- `s` denotes a time of `v` centiseconds: `H:M:S` with `M, S < 60` and an optional
fraction. -/
def TimeText (s : List Char) (v : Nat) : Prop :=
  ∃ h m sec frac H M S F,
    s = h ++ ':' :: m ++ ':' :: sec ++ frac ∧
    U32Text h H ∧ U32Text m M ∧ U32Text sec S ∧ FracText frac F ∧
    M < 60 ∧ S < 60 ∧ v = H * 360000 + M * 6000 + S * 100 + F

end Verif.Spec
