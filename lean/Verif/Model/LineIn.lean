import Verif.Model.Update
/-!
# A line parsed for a section — `crates/ass-core/parser/script/auto.rs`
-/
namespace Verif.LineIn
open Verif Verif.Ast Verif.Parser Verif.Update

/-- The errors: no format, the section's kind is not supported, or the line cannot be read. -/
inductive Bad where
  | missingFormat | unsupported | unreadable
deriving DecidableEq, Repr

/-- `parse_line_in_section`, auto.rs lines 69-130. -/
def inSection (s : Script) (k : Update.Kind) (line : Str) (n : Nat) : Except Bad Content :=
  match k with
  | .events => match s.eventsFmt with
    | none => .error .missingFormat
    | some f => match parseEvent line f with
      | some e => .ok (.event (e, newSpan n))
      | none => .error .unreadable
  | .styles => match s.stylesFmt with
    | none => .error .missingFormat
    | some f => match parseStyle line f with
      | some st => .ok (.style (st, newSpan n))
      | none => .error .unreadable
  | .info => match splitOnce ':' line with
    | some (key, value) => .ok (.field (trim key) (trim value))
    | none => .error .unreadable
  | _ => .error .unsupported

end Verif.LineIn
