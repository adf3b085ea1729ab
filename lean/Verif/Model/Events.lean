import Verif.Model.Str
/-!
# Event channel — `crates/ass-editor/events/{registry,dispatch,filter,channel}.rs`

A handler is described by its filter, its priority and the predicate telling on which events it
returns an error.  Every method takes `&mut self`, so calls are sequential.  Timing statistics,
logging and the async queue are left out.
-/
namespace Verif.Events
open Verif

/-- What filters can see of a `DocumentEvent` (types.rs): type name, `is_modification`, cursor or
selection event; `tag` stands for the rest. -/
structure Ev where
  typeName : Str
  isMod : Bool
  isCursor : Bool
  tag : Nat
deriving DecidableEq

/-- `EventFilter`, filter.rs lines 13-22. -/
structure Filter where
  includeTypes : List Str
  excludeTypes : List Str
  includeMods : Option Bool
  includeCursor : Option Bool

/-- `EventFilter::matches`, filter.rs lines 60-92. -/
def Filter.accepts (f : Filter) (e : Ev) : Bool :=
  if f.excludeTypes.contains e.typeName then false
  else if !f.includeTypes.isEmpty && !f.includeTypes.contains e.typeName then false
  else if (match f.includeMods with | some b => e.isMod != b | none => false) then false
  else if (match f.includeCursor with | some b => e.isCursor != b | none => false) then false
  else true

/-- `HandlerInfo`, channel.rs lines 56-67. -/
structure Handler where
  id : Nat
  filter : Filter
  prio : Int
  fails : Ev → Bool
  processed : Nat

/-- `EventChannel`, channel.rs lines 33-53. -/
structure Channel where
  maxHandlers : Nat
  handlers : List Handler
  next : Nat
  handlersCount : Nat
  dispatched : Nat
  filtered : Nat

/-- `EventChannel::with_config`, channel.rs lines 88-110. -/
def Channel.new (maxHandlers : Nat) : Channel := ⟨maxHandlers, [], 0, 0, 0, 0⟩

/-- Insert after every element of at least the same priority. -/
def place (h : Handler) : List Handler → List Handler
  | [] => [h]
  | a :: l => if a.prio ≥ h.prio then a :: place h l else h :: a :: l

/-- `sort_by_key(|h| Reverse(h.priority))`: the stable sort by descending priority, as insertion
sort. -/
def sortByPrio (l : List Handler) : List Handler := l.foldl (fun acc h => place h acc) []

/-- `register_handler`, registry.rs lines 16-68. -/
def register (c : Channel) (filter : Filter) (prio : Int) (fails : Ev → Bool) : Option Nat × Channel :=
  let c' := { c with next := c.next + 1 }
  if c.handlers.length ≥ c.maxHandlers then (none, c')
  else (some c.next, { c' with
    handlers := sortByPrio (c.handlers ++ [⟨c.next, filter, prio, fails, 0⟩])
    handlersCount := c.handlersCount + 1 })

/-- `position` + `remove`: drop the first handler with this id. -/
def dropId (id : Nat) : List Handler → List Handler
  | [] => []
  | h :: l => if h.id = id then l else h :: dropId id l

/-- `unregister_handler`, registry.rs lines 71-102. -/
def unregister (c : Channel) (id : Nat) : Bool × Channel :=
  if c.handlers.any (fun h => h.id == id) then
    (true, { c with handlers := dropId id c.handlers, handlersCount := c.handlersCount - 1 })
  else (false, c)

/-- `clear_handlers`, channel.rs lines 114-134. -/
def clear (c : Channel) : Channel := { c with handlers := [], handlersCount := 0 }

/-- The loop of `dispatch`, dispatch.rs lines 38-49: ids handed the event in order, whether all
succeeded, the updated handlers and the number filtered out. -/
def deliver (e : Ev) : List Handler → List Nat × Bool × List Handler × Nat
  | [] => ([], true, [], 0)
  | h :: l =>
    if h.filter.accepts e then
      if h.fails e then ([h.id], false, h :: l, 0)
      else
        let (ids, ok, l', k) := deliver e l
        (h.id :: ids, ok, { h with processed := h.processed + 1 } :: l', k)
    else
      let (ids, ok, l', k) := deliver e l
      (ids, ok, h :: l', k + 1)

/-- `dispatch`, dispatch.rs lines 19-95: the ids of the handlers called, success, new state. -/
def dispatch (c : Channel) (e : Ev) : List Nat × Bool × Channel :=
  let (ids, ok, hs, k) := deliver e c.handlers
  (ids, ok, { c with
    dispatched := c.dispatched + 1
    handlers := hs
    filtered := if ok then c.filtered + k else c.filtered })

/-- `dispatch_batch`, dispatch.rs lines 98-111 (both branches are the same loop): the calls made,
as (event, handler id). -/
def dispatchBatch (c : Channel) : List Ev → List (Ev × Nat) × Bool × Channel
  | [] => ([], true, c)
  | e :: es =>
    let (ids, ok, c1) := dispatch c e
    if ok then
      let (r, ok', c2) := dispatchBatch c1 es
      (ids.map (e, ·) ++ r, ok', c2)
    else (ids.map (e, ·), false, c1)

end Verif.Events
