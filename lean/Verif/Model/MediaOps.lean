import Verif.Model.Media
/-!
# Questions about embedded files — `crates/ass-editor/core/fluent/media.rs`

The other functions of `FontsOps` and `GraphicsOps` run the commands of `Model/Media.lean`.
-/
namespace Verif.MediaOps
open Verif Verif.Media

/-- `FontsOps::exists`, `GraphicsOps::exists`, media.rs lines 54-56 and 110-112. -/
def present (hd key name c : Str) : Bool := (list hd key c).contains name

/-- `FontsOps::count`, `GraphicsOps::count`, media.rs lines 66-68 and 122-124. -/
def count (hd key c : Str) : Nat := (list hd key c).length

end Verif.MediaOps
