import Verif.Model.Sort
/-!
# Active event selection — `crates/ass-renderer/src/renderer/{event_selector,time_index}.rs`

An event is reduced to what selection looks at: its kind, its parsed start and end time (`none` when
the field does not parse; parsing itself is C01/C02), and whether its text contains an animation tag
or a karaoke tag.  The events section carries the address of its vector, because the cached index is
keyed by address, length and the comment flag.  Indices are kept as lists in ascending order where the
code has hash sets; only membership is used.
-/
namespace Verif.Select

/-- Event kinds. -/
inductive Kind where
  | dialogue | comment | other
deriving DecidableEq

/-- What selection sees of an event. -/
structure Ev where
  kind : Kind
  start : Option Nat
  fin : Option Nat
  animated : Bool := false
  karaoke : Bool := false
deriving DecidableEq

/-- A script section. -/
inductive Sec where
  | events (addr : Nat) (evs : List Ev)
  | other
deriving DecidableEq

/-- `TimeIndex`, time_index.rs lines 15-18. -/
structure Index where
  key : Nat × Nat × Bool
  byStart : List (Nat × Nat × Nat)

/-- `should_include`, time_index.rs lines 32-36. -/
def keep (comments : Bool) (e : Ev) : Bool :=
  match e.kind with
  | .dialogue => true
  | .comment => comments
  | .other => false

/-- time_index.rs lines 31-42: the entries before sorting, counting from `i`. -/
def entries (comments : Bool) : Nat → List Ev → List (Nat × Nat × Nat)
  | _, [] => []
  | i, e :: l =>
    if keep comments e then (e.start.getD 0, e.fin.getD 0, i) :: entries comments (i + 1) l
    else entries comments (i + 1) l

/-- `TimeIndex::build`, time_index.rs lines 27-46.  `sort_unstable_by_key` is modelled by a stable sort;
the selected indices are sorted again below, so the order among equal keys is not observable. -/
def build (addr : Nat) (evs : List Ev) (comments : Bool) : Index :=
  ⟨(addr, evs.length, comments), sortKey (·.1) (entries comments 0 evs)⟩

/-- `EventSelector`, event_selector.rs lines 15-35 (dirty regions are modelled separately). -/
structure Sel where
  prev : List Nat
  last : Option Nat
  comments : Bool
  index : Option Index

/-- `EventSelector::new`, lines 65-80. -/
def Sel.new : Sel := ⟨[], none, false, none⟩

/-- `ensure_index`, lines 177-188. -/
def ensureIndex (s : Sel) (addr : Nat) (evs : List Ev) : Index :=
  match s.index with
  | some ix => if ix.key = (addr, evs.length, s.comments) then ix else build addr evs s.comments
  | none => build addr evs s.comments

/-- `has_animated_events`, lines 191-212. -/
def hasAnimated (evs : List Ev) (t : Nat) : Bool :=
  evs.any (fun e => e.animated || (e.karaoke && (match e.start with | some s => t > s | none => false)))

/-- The first events section, lines 110-116. -/
def firstEvents : List Sec → Option (Nat × List Ev)
  | [] => none
  | .events a evs :: _ => some (a, evs)
  | .other :: l => firstEvents l

/-- Indices active at `t` according to an index, lines 122-130 (`partition_point` on a list sorted by
start is the length of the prefix with `start ≤ t`). -/
def query (ix : Index) (t : Nat) : List Nat :=
  sortKey id (((ix.byStart.takeWhile (fun p => p.1 ≤ t)).filter (fun p => p.2.1 > t)).map (·.2.2))

/-- `ActiveEvents`, lines 52-61. -/
structure Active where
  idxs : List Nat
  events : List Ev
  newlyActive : List Nat
  newlyInactive : List Nat
  dirty : Bool
deriving DecidableEq

/-- Indexing `events_section[idx]`; `none` is the out-of-bounds panic. -/
def pick (evs : List Ev) : List Nat → Option (List Ev)
  | [] => some []
  | i :: l =>
    match evs[i]?, pick evs l with
    | some e, some r => some (e :: r)
    | _, _ => none

/-- `select_active`, lines 95-169.  `none` is an indexing panic.  The distance to the last time stamp
is computed exactly; the code's `as i32` conversions agree below 2^31 centiseconds. -/
def select (s : Sel) (script : List Sec) (t : Nat) : Option (Active × Sel) :=
  let (idxs, evs, index) := match firstEvents script with
    | some (addr, evs) =>
      let ix := ensureIndex s addr evs
      (query ix t, evs, some ix)
    | none => ([], [], s.index)
  match pick evs idxs with
  | none => none
  | some active =>
    let na := idxs.filter (fun i => !s.prev.contains i)
    let ni := s.prev.filter (fun i => !idxs.contains i)
    let dirty := !na.isEmpty || !ni.isEmpty || hasAnimated active t ||
      (match s.last with | none => true | some l => ((t : Int) - l).natAbs > 100)
    some (⟨idxs, active, na, ni, dirty⟩, { s with prev := idxs, last := some t, index := index })

end Verif.Select
