/-!
# Sorting

Slice sorts of the Rust standard library, as stable insertion sort.  A stable sort is determined by
its input and key, so any stable algorithm gives this list; where the code uses an unstable sort the
model says why the difference cannot be observed.
-/
namespace Verif

variable {α : Type}

/-- Insert `x` after every element `a` with `key a ≤ key x`. -/
def insertKey (key : α → Nat) (x : α) : List α → List α
  | [] => [x]
  | a :: l => if key a ≤ key x then a :: insertKey key x l else x :: a :: l

/-- Stable sort by a natural-number key. -/
def sortKey (key : α → Nat) (l : List α) : List α := l.foldl (fun acc x => insertKey key x acc) []

end Verif
