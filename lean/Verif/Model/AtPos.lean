import Verif.Model.Doc
/-!
# Edits at a position — `crates/ass-editor/core/document/position_api.rs`

`usize` has 64 bits.  `checks` tells whether the program was built with overflow checks: then `+` panics, otherwise it wraps.
-/
namespace Verif.AtPos
open Verif Verif.Doc Verif.Pos

/-- `+` on `usize`. -/
def plus (checks : Bool) (a b : Nat) : Outcome Nat :=
  if a + b < 2 ^ 64 then .ok (a + b) else if checks then .panic else .ok ((a + b) % 2 ^ 64)

/-- `at(pos).insert_text(t)`, position_api.rs lines 19-21. -/
def insertText (d : Doc) (pos : Nat) (t : Str) : Outcome Unit × Doc := d.insert pos t

/-- `at(pos).delete_range(len)`, position_api.rs lines 24-28. -/
def deleteRange (checks : Bool) (d : Doc) (pos len : Nat) : Outcome Unit × Doc :=
  match plus checks pos len with
  | .ok e => d.delete (Range.new pos e)
  | _ => (.panic, d)

/-- `at(pos).replace_text(len, t)`, position_api.rs lines 31-35. -/
def replaceText (checks : Bool) (d : Doc) (pos len : Nat) (t : Str) : Outcome Unit × Doc :=
  match plus checks pos len with
  | .ok e => d.replace (Range.new pos e) t
  | _ => (.panic, d)

end Verif.AtPos
