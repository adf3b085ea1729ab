import Verif.Model.ErrorInfo
import Verif.Model.Doc
/-!
# The texts of the errors of the editor — `crates/ass-editor/core/errors`

With the feature `std` the texts are those of the attributes in types.rs, without it those of display.rs; they are the same.
-/
namespace Verif.EditorError
open Verif Verif.ErrorInfo Verif.Pos

/-- `EditorError`, types.rs lines 21-143. -/
inductive EdErr where
  | core (e : CoreError)
  | documentNotFound (id : Str)
  | invalidPosition (line column : Nat)
  | outOfBounds (position length : Nat)
  | invalidRange (start fin length : Nat)
  | commandFailed (m : Str)
  | history (m : Str)
  | nothingToUndo
  | nothingToRedo
  | sessionLimit (current limit : Nat)
  | searchIndex (m : Str)
  | extension (ext m : Str)
  | feature (name required : Str)
  | arena (m : Str)
  | rope (m : Str)
  | eventChannel (m : Str)
  | validation (m : Str)
  | io (m : Str)
  | invalidFormat (m : Str)
  | unsupportedFormat (m : Str)
  | threadSafety (m : Str)
  | builder (m : Str)
  | serialization (m : Str)
  | formatLine (m : Str)
  | noSection (name : Str)
deriving DecidableEq, Repr

/-- `Display`, display.rs lines 14-72, and the attributes in types.rs lines 22-142. -/
def EdErr.text : EdErr → Str
  | .core e => e.text
  | .documentNotFound id => "Document not found: ".toList ++ id
  | .invalidPosition l c => at_ "Invalid position: line " l ++ at_ ", column " c
  | .outOfBounds p n => at_ "Position out of bounds: " p ++ at_ " (document length: " n ++ ")".toList
  | .invalidRange s e n => at_ "Invalid range: start " s ++ at_ ", end " e ++ at_ " (document length: " n ++ ")".toList
  | .commandFailed m => "Command execution failed: ".toList ++ m
  | .history m => "History operation failed: ".toList ++ m
  | .nothingToUndo => "Nothing to undo".toList
  | .nothingToRedo => "Nothing to redo".toList
  | .sessionLimit c l => at_ "Session limit exceeded: " c ++ at_ "/" l ++ " sessions".toList
  | .searchIndex m => "Search index error: ".toList ++ m
  | .extension x m => "Extension error: ".toList ++ x ++ ": ".toList ++ m
  | .feature f r => "Feature '".toList ++ f ++ "' requires '".toList ++ r ++ "' feature flag".toList
  | .arena m => "Arena allocation failed: ".toList ++ m
  | .rope m => "Rope operation failed: ".toList ++ m
  | .eventChannel m => "Event channel error: ".toList ++ m
  | .validation m => "Validation error: ".toList ++ m
  | .io m => "IO error: ".toList ++ m
  | .invalidFormat m => "Invalid format: ".toList ++ m
  | .unsupportedFormat m => "Unsupported format: ".toList ++ m
  | .threadSafety m => "Thread safety error: ".toList ++ m
  | .builder m => "Builder validation error: ".toList ++ m
  | .serialization m => "Serialization error: ".toList ++ m
  | .formatLine m => "Format line error: ".toList ++ m
  | .noSection s => "Section not found: ".toList ++ s

/-- The error of `insert_raw`, document/editing_raw.rs lines 13-18. -/
def insertErr (s : Str) (pos : Nat) : Option EdErr :=
  if pos > byteLen s then some (.outOfBounds pos (byteLen s)) else none

/-- The error of `delete_raw`, document/editing_raw.rs lines 37-43, and of `text_range`, text_access.rs lines 84-90. -/
def rangeErr (s : Str) (r : Range) : Option EdErr :=
  if r.fin > byteLen s then some (.invalidRange r.start r.fin (byteLen s)) else none

/-- The error of `insert`, document/editing.rs lines 42-69. -/
def insertError (d : Doc.Doc) (pos : Nat) : Option EdErr := insertErr d.text pos

/-- The error of `delete`, document/editing.rs lines 72-101: that of `text_range`, else that of `delete_raw`. -/
def deleteError (d : Doc.Doc) (r : Range) : Option EdErr := rangeErr d.text r

/-- The error of `replace`, document/editing.rs lines 104-135, with `replace_raw`, editing_raw.rs lines 63-67. -/
def replaceError (d : Doc.Doc) (r : Range) : Option EdErr :=
  match rangeErr d.text r with
  | some e => some e
  | none => insertErr (Doc.deleteRaw d.text r).2 r.start

end Verif.EditorError
