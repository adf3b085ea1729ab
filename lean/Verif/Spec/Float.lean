import Verif.Spec.Time
/-!
# Specification: decimal numbers with point and exponent

As documented for `f32::from_str`.
-/
namespace Verif.Spec.Float
open Verif.Spec

/-- An exponent or nothing: `e` and an integer; by how many powers of ten up and down. -/
def Exponent (s : List Char) (up down : Nat) : Prop :=
  (s = [] ∧ up = 0 ∧ down = 0) ∨
  ∃ e ds, (e = 'e' ∨ e = 'E') ∧
    ((Numeral ds up ∧ down = 0 ∧ (s = e :: ds ∨ s = e :: '+' :: ds)) ∨ (Numeral ds down ∧ up = 0 ∧ s = e :: '-' :: ds))

/-- Digits with at most one point and an exponent, and their value. -/
def Decimal (s : List Char) (v : Rat) : Prop :=
  ∃ ip point fp ex up down, s = ip ++ point ++ fp ++ ex ∧ (∀ c ∈ ip ++ fp, c.isDigit) ∧ ip ++ fp ≠ [] ∧
    (point = ['.'] ∨ (point = [] ∧ fp = [])) ∧ Exponent ex up down ∧
    v = (Nat.ofDigitChars 10 (ip ++ fp) 0 : Nat) * 10 ^ up / 10 ^ (fp.length + down)

/-- Infinity in letters of any case. -/
def Infinity (s : List Char) : Prop := s.map Char.toLower = "inf".toList ∨ s.map Char.toLower = "infinity".toList

/-- Half of the least positive `f32`: what is not greater is taken for zero. -/
def tiny : Rat := 1 / 2 ^ 150

/-- A number above zero. -/
def AboveZero (s : List Char) : Prop :=
  ∃ t, (s = t ∨ s = '+' :: t) ∧ (Infinity t ∨ ∃ v, Decimal t v ∧ tiny < v)

/-- A number not below zero. -/
def NotBelowZero (s : List Char) : Prop :=
  ∃ t, ((s = t ∨ s = '+' :: t) ∧ (Infinity t ∨ ∃ v, Decimal t v)) ∨ (s = '-' :: t ∧ ∃ v, Decimal t v ∧ v ≤ tiny)

end Verif.Spec.Float
