import Verif.Spec.Search
/-!
# Specification: an index that is up to date
-/
namespace Verif.Spec.IndexUpdate
open Verif Verif.Spec.Srch

/-- The index gives, for every key, exactly the places of the words of the text with that key, in order. -/
def Exact (word : Char → Bool) (lower : Str → Str) (text : Str) (ix : Str → List Nat) : Prop :=
  ∀ k, (ix k).Pairwise (· < ·) ∧ ∀ p, p ∈ ix k ↔ ∃ w, IsWordAt word text w p ∧ lower w = k

end Verif.Spec.IndexUpdate
