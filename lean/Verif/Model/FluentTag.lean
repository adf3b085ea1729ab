import Verif.Model.TagCmd
import Verif.Model.Karaoke
/-!
# Chained tag and karaoke operations — `crates/ass-editor/core/fluent/{tag,karaoke,karaoke_builders}.rs`

The document is its text; as for the commands themselves (`Model/TagCmd.lean`, `Model/Karaoke.lean`) an operation gives its outcome,
with the end of the changed range, and the text afterwards.
-/
namespace Verif.FluentTag
open Verif Verif.Pos Verif.TagCmd

/-- `TagOps`, tag.rs lines 14-18. -/
structure TagOps where
  text : Str
  range : Option Range
  position : Option Nat

/-- `TagOps::new`, tag.rs lines 22-28. -/
def tags (s : Str) : TagOps := ⟨s, none, none⟩

/-- `at`, tag.rs lines 32-35. -/
def TagOps.at_ (o : TagOps) (p : Nat) : TagOps := { o with position := some p }

/-- `in_range`, tag.rs lines 39-42. -/
def TagOps.inRange (o : TagOps) (r : Range) : TagOps := { o with range := some r }

/-- `insert` and `insert_raw`, tag.rs lines 45-64; `auto` is false for the latter. -/
def TagOps.insert (o : TagOps) (tag : Str) (auto : Bool) : Outcome Nat × Str :=
  match o.position with
  | none => (.err, o.text)
  | some p => insertTag o.text p tag auto

/-- `remove_all` and `remove_pattern`, tag.rs lines 67-86. -/
def TagOps.remove (o : TagOps) (pattern : Option Str) : Outcome Nat × Str :=
  match o.range with
  | none => (.err, o.text)
  | some r => rewrite (removeText pattern true) o.text r

/-- `replace` and `replace_all`, tag.rs lines 89-114. -/
def TagOps.replace (o : TagOps) (find repl : Str) (all : Bool) : Outcome Nat × Str :=
  match o.range with
  | none => (.err, o.text)
  | some r => rewrite (replaceText find repl all) o.text r

/-- `wrap` and `wrap_with`, tag.rs lines 117-137. -/
def TagOps.wrap (o : TagOps) (opening : Str) (closing : Option Str) : Outcome Nat × Str :=
  match o.range with
  | none => (.err, o.text)
  | some r => wrapTag o.text r opening closing

/-- `parse`, tag.rs lines 140-148. -/
def TagOps.parse (o : TagOps) : Outcome (List Parsed) :=
  let r := o.range.getD ⟨0, byteLen o.text⟩
  match Doc.textRange o.text r with
  | .ok t => parseTags r.start t
  | .err => .err
  | .panic => .panic

/-- The karaoke operations with what is set on their builders: karaoke.rs lines 99-134, karaoke_builders.rs lines 16-123. -/
inductive KOp where
  | generate (duration : Nat) (kind : Karaoke.Kind) (auto : Bool)
  | split (positions : List Nat) (duration : Option Nat)
  | adjust (a : Karaoke.Adjust)
  | apply (t : Karaoke.Template)

/-- What the command makes of the text of the range; commands/karaoke_commands. -/
def KOp.onText : KOp → Str → Outcome Str
  | .generate d kind auto, t => match Karaoke.generate kind d auto t with
    | some r => .ok r
    | none => .err
  | .split ps d, t => Karaoke.splitKaraoke ps d t
  | .adjust a, t => Karaoke.adjust a t
  | .apply a, t => Karaoke.applyTemplate a t

/-- A karaoke operation, `range` being what `in_range` was called with last, if it was called: karaoke.rs lines 16-96. -/
def karaoke (op : KOp) (range : Option Range) (s : Str) : Outcome Nat × Str :=
  rewrite op.onText s (range.getD ⟨0, byteLen s⟩)

end Verif.FluentTag
