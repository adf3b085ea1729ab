/-!
# Positions and ranges — `crates/ass-editor/core/position/{points,range,selection}.rs`

A `Position` is its byte offset.  `usize` is unbounded here; the only arithmetic below that
could overflow is `advance`, which saturates in the code and is not modelled.
-/
namespace Verif.Pos

/-- `Range`, range.rs lines 38-43. -/
structure Range where
  start : Nat
  fin : Nat
  deriving DecidableEq, Repr

namespace Range
/-- `Range::new`, range.rs lines 50-59. -/
def new (a b : Nat) : Range := if a ≤ b then ⟨a, b⟩ else ⟨b, a⟩
/-- `Range::empty`, range.rs lines 63-68. -/
def empty (p : Nat) : Range := ⟨p, p⟩
/-- `Range::is_empty`, range.rs lines 72-74. -/
def isEmpty (r : Range) : Bool := r.start == r.fin
/-- `Range::len`, range.rs lines 78-80 (`saturating_sub`). -/
def len (r : Range) : Nat := r.fin - r.start
/-- `Range::contains`, range.rs lines 84-86. -/
def contains (r : Range) (p : Nat) : Bool := p ≥ r.start && p < r.fin
/-- `Range::overlaps`, range.rs lines 90-92. -/
def overlaps (r s : Range) : Bool := r.start < s.fin && s.start < r.fin
/-- `Range::extend_to`, range.rs lines 96-101. -/
def extendTo (r : Range) (p : Nat) : Range := ⟨min r.start p, max r.fin p⟩
/-- `Range::union`, range.rs lines 105-110. -/
def union (r s : Range) : Range := ⟨min r.start s.start, max r.fin s.fin⟩
/-- `Range::intersection`, range.rs lines 114-123. -/
def inter (r s : Range) : Option Range :=
  let a := max r.start s.start
  let b := min r.fin s.fin
  if a < b then some (new a b) else none
end Range

/-- `Selection`, selection.rs lines 13-18. -/
structure Selection where
  anchor : Nat
  cursor : Nat
  deriving DecidableEq, Repr

namespace Selection
/-- `Selection::range`, selection.rs lines 44-46. -/
def range (s : Selection) : Range := Range.new s.anchor s.cursor
/-- `Selection::is_reversed`, selection.rs lines 50-52. -/
def isReversed (s : Selection) : Bool := s.cursor < s.anchor
/-- `Selection::extend_to`, selection.rs lines 56-61. -/
def extendTo (s : Selection) (p : Nat) : Selection := ⟨s.anchor, p⟩
end Selection

end Verif.Pos
