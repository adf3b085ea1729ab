import Verif.Model.EventCmd
/-!
# Merging events by the fluent interface — `crates/ass-editor/core/fluent/event_merge_timing.rs`
-/
namespace Verif.FluentMerge
open Verif Verif.Doc

/-- `EventMerger`, event_merge_timing.rs lines 14-19, without the document. -/
structure Merger where
  first : Nat
  second : Nat
  separator : Str

/-- `new`, event_merge_timing.rs lines 23-34. -/
def Merger.new (i j : Nat) : Merger := ⟨i, j, " ".toList⟩

/-- `with_separator`, event_merge_timing.rs lines 37-40. -/
def Merger.withSeparator (m : Merger) (sep : Str) : Merger := { m with separator := sep }

/-- `apply`, event_merge_timing.rs lines 43-48. -/
def Merger.apply (m : Merger) (d : Doc) : Outcome Unit × Doc := EventCmd.mergeEvents m.first m.second m.separator d

end Verif.FluentMerge
