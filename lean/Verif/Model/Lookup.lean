import Verif.Model.Update
/-!
# Finding sections — `crates/ass-core/parser/script/{lookup,container}.rs`
-/
namespace Verif.Lookup
open Verif
open Verif.Parser
open Verif.Update (Kind kind span)

/-- `find_section`, container.rs lines 93-97. -/
def findKind (s : Script) (k : Kind) : Option Section := s.sections.find? (fun x => decide (kind x = k))

/-- `section_range`, lookup.rs lines 33-37. -/
def sectionRange (s : Script) (k : Kind) : Option (Nat × Nat) :=
  (findKind s k).bind (fun x => (span x).map (fun p => (p.start, p.stop)))

/-- `section_at_offset`, lookup.rs lines 44-49. -/
def sectionAt (s : Script) (o : Nat) : Option Section :=
  s.sections.find? (fun x => (span x).any (fun p => decide (p.start ≤ o) && decide (o < p.stop)))

/-- `section_boundaries`, lookup.rs lines 57-65. -/
def boundaries (s : Script) : List (Kind × Nat × Nat) :=
  s.sections.filterMap (fun x => (span x).map (fun p => (kind x, p.start, p.stop)))

end Verif.Lookup
