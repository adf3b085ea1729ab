import Verif.Model.DocEdit
import Verif.Model.EventCmd
import Verif.Model.Query
/-!
# The fluent operations on events — `crates/ass-editor/core/fluent/{event_ops,event_accessor,event_deleter,event_merge_timing}.rs`

The operations that only hand their arguments to a command (`split`, `merge`, `toggle_type`, `effects`, `shift`) are those commands
(`Verif.Model.EventCmd`).  `str::to_lowercase` is the parameter `lower`.
-/
namespace Verif.Fluent
open Verif
open Verif.Doc (Doc)
open Verif.Ast (Event Kind)
open Verif.Query (Info Filter)

/-- `Result<Result<T>>` with the question mark. -/
def flat {α : Type} : Outcome (Outcome α) → Outcome α
  | .ok o => o
  | .err => .err
  | .panic => .panic

/-- The loop of event_ops.rs lines 66-77: the event with the number `index`, counted from `current`.  The line and the range are the
placeholders of lines 174-184. -/
def nth (index : Nat) : Nat → List Event → Option Info
  | _, [] => none
  | current, e :: l => if current = index then some ⟨index, e, 1, (0, 0)⟩ else nth index (current + 1) l

/-- `EventOps::get`, event_ops.rs lines 59-83. -/
def get (index : Nat) (d : Doc) : Outcome (Option Info) :=
  DocEdit.withScript d (fun sc => nth index 0 (sc.sections.flatMap Query.eventsOf))

/-- `EventOps::count`, event_ops.rs lines 96-108. -/
def count (d : Doc) : Outcome Nat :=
  DocEdit.withScript d (fun sc => sc.sections.foldl (fun n s => n + (Query.eventsOf s).length) 0)

/-- `EventAccessor`'s getters, event_accessor.rs lines 30-88: a part of what `get` gives. -/
def field {α : Type} (part : Event → α) (index : Nat) (d : Doc) : Outcome (Option α) :=
  match get index d with
  | .ok i => .ok (i.map (fun i => part i.event))
  | .err => .err
  | .panic => .panic

/-- `EventAccessor::exists`, event_accessor.rs lines 75-77. -/
def exists_ (index : Nat) (d : Doc) : Outcome Bool :=
  match get index d with
  | .ok i => .ok i.isSome
  | .err => .err
  | .panic => .panic

/-- The indices of `EventQuery::new(document)` with a filter, event_query_exec.rs `indices`. -/
def matching (lower : Str → Str) (f : Filter) (d : Doc) : Outcome (List Nat) :=
  flat (DocEdit.withScript d (fun sc => Query.indices lower sc.sections { filter := f }))

/-- The body shared by `dialogues`, `comments`, `in_time_range`, `with_style`, `containing` and `all`, event_deleter.rs lines 33-88. -/
def deleteWhere (lower : Str → Str) (f : Filter) (d : Doc) : Outcome Unit × Doc :=
  match matching lower f d with
  | .ok is => EventCmd.batchDelete is d
  | .err => (.err, d)
  | .panic => (.panic, d)

/-- `EventDeleter::dialogues`, event_deleter.rs lines 33-40. -/
def deleteDialogues (lower : Str → Str) (d : Doc) := deleteWhere lower { kind := some .dialogue } d
/-- `EventDeleter::comments`, event_deleter.rs lines 43-50. -/
def deleteComments (lower : Str → Str) (d : Doc) := deleteWhere lower { kind := some .comment } d
/-- `EventDeleter::in_time_range`, event_deleter.rs lines 53-60. -/
def deleteInTime (lower : Str → Str) (a b : Nat) (d : Doc) := deleteWhere lower { time := some (a, b) } d
/-- `EventDeleter::with_style`, event_deleter.rs lines 63-70. -/
def deleteStyle (lower : Str → Str) (style : Str) (d : Doc) := deleteWhere lower { style := some style } d
/-- `EventDeleter::containing`, event_deleter.rs lines 73-80. -/
def deleteContaining (lower : Str → Str) (text : Str) (d : Doc) := deleteWhere lower { text := some text } d
/-- `EventDeleter::all`, event_deleter.rs lines 83-88. -/
def deleteAll (lower : Str → Str) (d : Doc) := deleteWhere lower {} d

/-- `EventDeleter::execute` after `by_indices`, event_deleter.rs lines 27-30, 91-98. -/
def deleteIndices (is : List Nat) (d : Doc) : Outcome Unit × Doc :=
  if is = [] then (.ok (), d) else EventCmd.batchDelete is d

/-- `f64 as i32`, towards zero and saturating; not a number is left out. -/
def toI32 (x : Rat) : Int :=
  let n := if x < 0 then x.ceil else x.floor
  if n < -2147483648 then -2147483648 else if n > 2147483647 then 2147483647 else n

/-- `EventTimer::scale_duration`, event_merge_timing.rs lines 99-103, with `TimingAdjustCommand::scale_duration`, timing.rs lines 57-61.
The product is exact here. -/
def scaleDuration (is : List Nat) (factor : Rat) (n : Nat) (d : Doc) : Option (Outcome Unit × Doc) :=
  let offset := toI32 (factor * 100) - 100
  if offset < -2147483648 then some (.panic, d) else EventCmd.timing is 0 offset n d

end Verif.Fluent
