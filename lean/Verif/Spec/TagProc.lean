import Verif.Spec.Segment
/-!
# Specification: all tags of an event
-/
namespace Verif.Spec.TagProc
open Verif.Spec.Ovr

/-- `Tagged s blocks`: the closed blocks of a text, in order.  A backslash outside of them belongs with the next character. -/
inductive Tagged : List Char → List (List Char) → Prop
  | nil : Tagged [] []
  | block (content s bs) (hb : Balanced 1 content) (h : Tagged s bs) : Tagged ('{' :: content ++ '}' :: s) (content :: bs)
  | escape (c s bs) (h : Tagged s bs) : Tagged ('\\' :: c :: s) bs
  | char (c s bs) (hc : c ≠ '{' ∧ c ≠ '\\') (h : Tagged s bs) : Tagged (c :: s) bs

/-- The places of a character in a text, in bytes, from the first to the last. -/
def Occurs (x : Char) (text : List Char) (l : List Nat) : Prop :=
  l.Pairwise (· < ·) ∧ ∀ n, n ∈ l ↔ ∃ a b, text = a ++ x :: b ∧ Verif.Spec.Segment.bytes a = n

end Verif.Spec.TagProc
