import Verif.Model.Bytes
/-! # Specification: valid UTF-8 and its recovery -/
namespace Verif.Spec.Encoding
open Verif

/-- The bytes are the UTF-8 encoding of a text. -/
def Valid (b : List Nat) : Prop := ∃ s : List Char, utf8 s = b

/-- The first `n` bytes are valid, and no longer beginning is. -/
def ValidUpTo (b : List Nat) (n : Nat) : Prop := n ≤ b.length ∧ Valid (b.take n) ∧ ∀ m, n < m → m ≤ b.length → ¬ Valid (b.take m)

/-- The text is read from the bytes, with `k` stretches of bytes, where no character begins, replaced by U+FFFD. -/
inductive Recovered : List Nat → List Char → Nat → Prop
  | nil : Recovered [] [] 0
  | char {c b s k} (h : Recovered b s k) : Recovered (utf8Enc c ++ b) (c :: s) k
  | bad {x b s k} (hne : x ≠ []) (hb : ∀ c r, x ++ b ≠ utf8Enc c ++ r) (h : Recovered b s k) :
      Recovered (x ++ b) (Char.ofNat 0xFFFD :: s) (k + 1)

/-- A control character. -/
def Control (c : Char) : Prop := c.toNat < 32 ∨ (127 ≤ c.toNat ∧ c.toNat < 160)

/-- A character that text may contain: no control character except tabulator and line ends. -/
def Allowed (c : Char) : Prop := c = '\t' ∨ c = '\n' ∨ c = '\r' ∨ ¬ Control c

end Verif.Spec.Encoding
