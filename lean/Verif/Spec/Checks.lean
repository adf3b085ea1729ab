import Verif.Spec.Time
import Verif.Spec.Color
import Verif.Spec.Encoding
import Verif.Spec.InfoCmd
import Verif.Spec.Script
/-!
# Specification: checks of names, colours, and pieces of a source
-/
namespace Verif.Spec.Checks
open Verif.Spec.InfoCmd (Stripped)

/-- A name: not empty, without separators and braces, and without control characters except tabulators. -/
def Name (n : List Char) : Prop :=
  n ≠ [] ∧ ∀ c ∈ n, c ≠ ',' ∧ c ≠ ':' ∧ c ≠ '{' ∧ c ≠ '}' ∧ (c = '\t' ∨ ¬ Encoding.Control c)

/-- Six or eight hexadecimal digits after `&H` or `&h`, perhaps with `&` behind. -/
def HexColour (t : List Char) : Prop :=
  ∃ h p e, t = '&' :: h :: p ++ e ∧ (h = 'H' ∨ h = 'h') ∧ (e = [] ∨ e = ['&']) ∧ (p.length = 6 ∨ p.length = 8) ∧
    ∀ c ∈ p, ∃ x, hexDigit c = some x

/-- A decimal number of 32 bits. -/
def DecimalColour (t : List Char) : Prop := ∃ v, U32Text t v

/-- The piece stands in the text behind `pre`: the text has been put at the address `base`. -/
def At (base : Nat) (pre : List Char) (addr : Nat) : Prop := addr = base + Script.size pre

end Verif.Spec.Checks
