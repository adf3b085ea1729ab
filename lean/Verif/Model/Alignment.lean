/-!
# Alignment — `crates/ass-renderer/src/layout/{alignment,positioning/coords}.rs`

Values are bytes; the variants of `Alignment` are the numbers given to them, alignment.rs lines 5-25.
-/
namespace Verif.Alignment

/-- `Alignment::from_value`, alignment.rs lines 29-42. -/
def fromValue (value : Nat) : Nat :=
  match value with
  | 1 => 1 | 2 => 2 | 3 => 3 | 4 => 4 | 5 => 5 | 6 => 6 | 7 => 7 | 8 => 8 | 9 => 9
  | _ => 2

/-- `Alignment::from_ssa_legacy`, alignment.rs lines 45-78. -/
def fromSsaLegacy (value : Nat) : Nat :=
  match value &&& 3 with
  | 1 => match value &&& 12 with
    | 0 => 1
    | 4 => 4
    | 8 => 7
    | 12 => 7
    | _ => 1
  | 2 => match value &&& 12 with
    | 0 => 2
    | 4 => 5
    | 8 => 8
    | 12 => 8
    | _ => 2
  | 3 => match value &&& 12 with
    | 0 => 3
    | 4 => 6
    | 8 => 9
    | 12 => 9
    | _ => 3
  | _ => 2

/-- `convert_ssa_alignment`, coords.rs lines 16-37. -/
def convertSsa (ssa : Nat) : Nat :=
  let h := ssa &&& 3
  let v := (ssa >>> 2) &&& 3
  let hPart := match h with
    | 1 => 1
    | 2 => 2
    | 3 => 3
    | _ => 2
  let vPart := match v with
    | 0 => 0
    | 1 => 3
    | 3 => 3
    | 2 => 6
    | _ => 0
  hPart + vPart

end Verif.Alignment
