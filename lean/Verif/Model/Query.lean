import Verif.Model.Parser
import Verif.Model.StrX
import Verif.Model.Outcome
import Verif.Model.Range
/-!
# Event queries — `crates/ass-editor/core/fluent/{event_query,event_query_exec,event_query_filter,query_types}.rs`

`str::to_lowercase` is a parameter `lower`.
-/
namespace Verif.Query
open Verif
open Verif.Ast (Event)
open Verif.Parser (Section)

/-- `EventInfo`, query_types.rs lines 14-23; the owned event has the fields of the event (lines 56-74). -/
structure Info where
  index : Nat
  event : Event
  line : Nat
  range : Nat × Nat
deriving DecidableEq, Repr

/-- `EventFilter`, query_types.rs lines 78-97. -/
structure Filter where
  kind : Option Ast.Kind := none
  style : Option Str := none
  speaker : Option Str := none
  text : Option Str := none
  time : Option (Nat × Nat) := none
  layer : Option Nat := none
  effect : Option Str := none
  regex : Bool := false
  caseSensitive : Bool := false

/-- `EventSortCriteria`, query_types.rs lines 101-118. -/
inductive Crit where
  | start | stop | duration | style | speaker | layer | index | text
deriving DecidableEq, Repr

/-- `EventSortOptions`, query_types.rs lines 122-129. -/
structure SortOpt where
  crit : Crit
  secondary : Option Crit := none
  ascending : Bool := true

/-- `EventQuery`, event_query.rs lines 15-20, without the document. -/
structure Query where
  filter : Filter := {}
  sort : Option SortOpt := none
  limit : Option Nat := none

/-- `sort`, event_query.rs lines 84-91. -/
def Query.sortBy (q : Query) (c : Crit) : Query := { q with sort := some ⟨c, none, true⟩ }

/-- `descending`, event_query.rs lines 110-115. -/
def Query.descending (q : Query) : Query := { q with sort := q.sort.map fun o => { o with ascending := false } }

/-- `then_by`, event_query.rs lines 117-122. -/
def Query.thenBy (q : Query) (c : Crit) : Query := { q with sort := q.sort.map fun o => { o with secondary := some c } }

/-- `parse_time_to_cs`, event_query_filter.rs lines 94-122.  The sum and its parts overflow exactly if the sum does not fit. -/
def parseTime (s : Str) : Outcome Nat :=
  match splitOn ':' s with
  | [h, m, r] =>
    match parseU32 h, parseU32 m, splitOn '.' r with
    | some hours, some minutes, [a, b] =>
      match parseU32 a, parseU32 b with
      | some seconds, some cs =>
        if hours * 360000 + minutes * 6000 + seconds * 100 + cs < u32Bound then
          .ok (hours * 360000 + minutes * 6000 + seconds * 100 + cs)
        else .panic
      | _, _ => .err
    | _, _, _ => .err
  | _ => .err

/-- `matches_pattern`, event_query_filter.rs lines 76-92; both branches do the same. -/
def matchesPattern (lower : Str → Str) (f : Filter) (text pattern : Str) : Bool :=
  if f.caseSensitive then containsStr pattern text else containsStr (lower pattern) (lower text)

/-- One optional pattern of the filter. -/
def passes (lower : Str → Str) (f : Filter) (p : Option Str) (text : Str) : Bool :=
  match p with
  | none => true
  | some p => matchesPattern lower f text p

/-- The layer test, event_query_filter.rs lines 48-56. -/
def layerOk (f : Filter) (e : Event) : Bool :=
  match f.layer with
  | none => true
  | some n => match parseU32 e.layer with
    | some l => l == n
    | none => false

/-- The time test, event_query_filter.rs lines 58-71; both times are read first. -/
def timeOk (f : Filter) (e : Event) : Outcome Bool :=
  match f.time with
  | none => .ok true
  | some (a, b) => match parseTime e.start with
    | .panic => .panic
    | s => match parseTime e.stop with
      | .panic => .panic
      | t => match s, t with
        | .ok s, .ok t => .ok (!(decide (s < a) || decide (t > b)))
        | _, _ => .ok false

/-- The type test, event_query_filter.rs lines 18-22. -/
def kindOk (f : Filter) (e : Event) : Bool :=
  match f.kind with
  | none => true
  | some k => decide (e.kind = k)

/-- `matches_filter`, event_query_filter.rs lines 16-74. -/
def matchesFilter (lower : Str → Str) (f : Filter) (e : Event) : Outcome Bool :=
  if !kindOk f e then .ok false
  else if !passes lower f f.style e.style then .ok false
  else if !passes lower f f.text e.text then .ok false
  else if !passes lower f f.speaker e.name then .ok false
  else if !passes lower f f.effect e.effect then .ok false
  else if !layerOk f e then .ok false
  else timeOk f e

/-- The events of a section, event_query_exec.rs lines 94-107. -/
def eventsOf : Section → List Event
  | .events l => l.map (·.1)
  | _ => []

/-- Numbered from `n`, with the placeholders of event_query_exec.rs lines 154-164. -/
def numbered : Nat → List Event → List Info
  | _, [] => []
  | n, e :: l => ⟨n, e, 1, (0, 0)⟩ :: numbered (n + 1) l

/-- `collect_events`, event_query_exec.rs lines 88-112. -/
def collect (sections : List Section) : List Info := numbered 0 (sections.flatMap eventsOf)

/-- `apply_filters`, event_query_exec.rs lines 114-124. -/
def applyFilters (lower : Str → Str) (f : Filter) : List Info → Outcome (List Info)
  | [] => .ok []
  | i :: l => match matchesFilter lower f i.event with
    | .ok b => match applyFilters lower f l with
      | .ok r => .ok (if b then i :: r else r)
      | o => o
    | .err => .err
    | .panic => .panic

/-- `str::cmp`: the order of the bytes, which is that of the code points. -/
def cmpStr : Str → Str → Ordering
  | [], [] => .eq
  | [], _ :: _ => .lt
  | _ :: _, [] => .gt
  | a :: x, b :: y => if a < b then .lt else if b < a then .gt else cmpStr x y

/-- `usize::cmp`, `u32::cmp`. -/
def cmpNat (a b : Nat) : Ordering := if a < b then .lt else if b < a then .gt else .eq

/-- `parse_time_to_cs(…).unwrap_or(0)`. -/
def timeOr0 (s : Str) : Outcome Nat :=
  match parseTime s with
  | .err => .ok 0
  | o => o

/-- What is compared: a number or a text. -/
inductive Key where
  | num (n : Nat)
  | txt (s : Str)
deriving DecidableEq, Repr

/-- The compared values of `compare_by_criteria`, event_query_filter.rs lines 124-160. -/
def key (c : Crit) (i : Info) : Outcome Key :=
  match c with
  | .start => match timeOr0 i.event.start with
    | .ok n => .ok (.num n)
    | _ => .panic
  | .stop => match timeOr0 i.event.stop with
    | .ok n => .ok (.num n)
    | _ => .panic
  | .duration => match timeOr0 i.event.start, timeOr0 i.event.stop with
    | .ok s, .ok t => .ok (.num (t - s))
    | _, _ => .panic
  | .style => .ok (.txt i.event.style)
  | .speaker => .ok (.txt i.event.name)
  | .layer => .ok (.num ((parseU32 i.event.layer).getD 0))
  | .index => .ok (.num i.index)
  | .text => .ok (.txt i.event.text)

/-- The order of values; keys of one criterion are of one sort. -/
def cmpKey : Key → Key → Ordering
  | .num a, .num b => cmpNat a b
  | .txt a, .txt b => cmpStr a b
  | .num _, .txt _ => .lt
  | .txt _, .num _ => .gt

/-- `compare_by_criteria`, event_query_filter.rs lines 124-160. -/
def compareBy (c : Crit) (a b : Info) : Outcome Ordering :=
  match key c a, key c b with
  | .ok x, .ok y => .ok (cmpKey x y)
  | _, _ => .panic

/-- `Ordering::reverse`, applied when descending. -/
def turn (ascending : Bool) : Ordering → Ordering
  | .lt => if ascending then .lt else .gt
  | .gt => if ascending then .gt else .lt
  | .eq => .eq

/-- The comparison of `apply_sort`, event_query_exec.rs lines 127-151. -/
def compareInfo (o : SortOpt) (a b : Info) : Outcome Ordering :=
  match compareBy o.crit a b with
  | .ok .eq => match o.secondary with
    | some c => match compareBy c a b with
      | .ok x => .ok (turn o.ascending x)
      | y => y
    | none => .ok .eq
  | .ok x => .ok (turn o.ascending x)
  | y => y

/-- Insertion behind everything that is not greater. -/
def insertInfo (o : SortOpt) (x : Info) : List Info → Outcome (List Info)
  | [] => .ok [x]
  | a :: l => match compareInfo o a x with
    | .ok .gt => .ok (x :: a :: l)
    | .ok _ => match insertInfo o x l with
      | .ok r => .ok (a :: r)
      | y => y
    | .err => .err
    | .panic => .panic

/-- `apply_sort`, event_query_exec.rs lines 126-152: the standard library's stable sort, modelled by insertion.  A comparison
that panics is made by every sort: elements next to each other in the result have been compared. -/
def applySort (o : SortOpt) : List Info → List Info → Outcome (List Info)
  | acc, [] => .ok acc
  | acc, x :: l => match insertInfo o x acc with
    | .ok r => applySort o r l
    | y => y

/-- The sorting step of `execute`, event_query_exec.rs lines 23-25. -/
def sortStep (q : Query) (l : List Info) : Outcome (List Info) :=
  match q.sort with
  | none => .ok l
  | some o => applySort o [] l

/-- `execute`, event_query_exec.rs lines 16-33. -/
def execute (lower : Str → Str) (sections : List Section) (q : Query) : Outcome (List Info) :=
  match applyFilters lower q.filter (collect sections) with
  | .ok l => match sortStep q l with
    | .ok r => .ok (match q.limit with
      | some n => r.take n
      | none => r)
    | o => o
  | o => o

/-- `indices`, event_query_exec.rs lines 36-38. -/
def indices (lower : Str → Str) (sections : List Section) (q : Query) : Outcome (List Nat) :=
  match execute lower sections q with
  | .ok l => .ok (l.map (·.index))
  | .err => .err
  | .panic => .panic

/-- `first`, event_query_exec.rs lines 50-53: the limit is replaced. -/
def first (lower : Str → Str) (sections : List Section) (q : Query) : Outcome (Option Info) :=
  match execute lower sections { q with limit := some 1 } with
  | .ok l => .ok l.getLast?
  | .err => .err
  | .panic => .panic

/-- `count`, event_query_exec.rs lines 56-58. -/
def count (lower : Str → Str) (sections : List Section) (q : Query) : Outcome Nat :=
  match execute lower sections q with
  | .ok l => .ok l.length
  | .err => .err
  | .panic => .panic

/-- `timing`, `toggle_type` and `effects`, event_query_exec.rs lines 61-82. -/
def chain (lower : Str → Str) (sections : List Section) (q : Query) : Outcome Unit :=
  match execute lower sections q with
  | .ok _ => .err
  | .err => .err
  | .panic => .panic

end Verif.Query
