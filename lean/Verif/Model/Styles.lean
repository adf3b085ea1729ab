import Verif.Model.Map
import Verif.Model.Str
/-!
# Style dependency order and inheritance — `crates/ass-core/analysis/styles/analyzer/{dependency,analysis}.rs`

A style is its name, its optional parent name and a body `B` holding the other fields.  The per-field
rules of `ResolvedStyle::from_style`, `from_style_with_parent` and `apply_resolution_scaling` are
parameters.  Sets are lists (membership only); the order of a node's parents and of the keys is the list
order instead of the `BTreeMap` order, which changes neither which styles are returned nor whether a
cycle is found.
-/
namespace Verif.Styles
open Verif

/-- The parts of `Style` used here. -/
structure Style (B : Type) where
  name : Str
  parent : Option Str
  body : B
deriving DecidableEq

variable {B R : Type}

/-- Is a style of this name in the section (`style_map.contains_key`), dependency.rs line 21 and 36. -/
def known (styles : List (Style B)) (n : Str) : Bool := styles.any (fun s => s.name = n)

/-- `dependencies[n]`, dependency.rs lines 34-41: existing parents named by styles called `n`. -/
def parents (styles : List (Style B)) (n : Str) : List Str :=
  (styles.filter (fun s => s.name = n)).filterMap (fun s =>
    s.parent.filter (fun p => known styles p))

/-- The keys of `dependencies`, lines 28-31. -/
def keys (styles : List (Style B)) : List Str :=
  styles.foldl (fun acc s => if acc.contains s.name then acc else acc ++ [s.name]) []

/-- `in_degree[n]`, lines 34-41: how many styles name `n` as their existing parent. -/
def inDegree (styles : List (Style B)) (n : Str) : Nat :=
  if known styles n then (styles.filter (fun s => s.parent = some n)).length else 0

/-! ## Cycle detection, lines 112-151 -/

/-- `visited` and `rec_stack`. -/
abbrev DfsState := List Str × List Str

/-- The loop over the neighbours, lines 138-146. -/
def dfsLoop (f : Str → DfsState → Option (Bool × DfsState)) : List Str → DfsState → Option (Bool × DfsState)
  | [], st => some (false, st)
  | m :: l, st =>
    if !st.1.contains m then
      match f m st with
      | some (false, st') => dfsLoop f l st'
      | r => r
    else if st.2.contains m then some (true, st)
    else dfsLoop f l st

/-- `dfs_has_cycle`, lines 128-151; the first argument bounds the recursion depth (`none` when it runs
out, which `C58` shows does not happen). -/
def dfs (adj : Str → List Str) : Nat → Str → DfsState → Option (Bool × DfsState)
  | 0, _, _ => none
  | k + 1, n, st =>
    match dfsLoop (dfs adj k) (adj n) (n :: st.1, n :: st.2) with
    | some (false, st') => some (false, (st'.1, st'.2.filter (· ≠ n)))
    | r => r

/-- `has_circular_dependency`, lines 112-125. -/
def hasCycle (adj : Str → List Str) (k : Nat) : List Str → DfsState → Option Bool
  | [], _ => some false
  | n :: l, st =>
    if st.1.contains n then hasCycle adj k l st
    else
      match dfs adj k n st with
      | none => none
      | some (true, _) => some true
      | some (false, st') => hasCycle adj k l st'

/-! ## Topological order, lines 73-108 -/

/-- Lines 90-99: decrement the degree of every style that has `cur` as parent, queueing it at 0. -/
def relax (adj : Str → List Str) (cur : Str) : List Str → (Str → Nat) × List Str → (Str → Nat) × List Str
  | [], st => st
  | c :: l, (deg, q) =>
    if (adj c).contains cur then
      let d := deg c - 1
      relax adj cur l (fun x => if x = c then d else deg x, if d = 0 then c :: q else q)
    else relax adj cur l (deg, q)

/-- Lines 84-100; the queue is used as a stack (push and pop at the same end). -/
def topo (adj : Str → List Str) (ks : List Str) : Nat → (Str → Nat) × List Str → List Str → Option (List Str)
  | 0, _, _ => none
  | _ + 1, (_, []), res => some res
  | k + 1, (deg, cur :: q), res => topo adj ks k (relax adj cur ks (deg, q)) (res ++ [cur])

/-- `style_map.get`: the last style of that name, line 21. -/
def lookup (styles : List (Style B)) (n : Str) : Option (Style B) :=
  (styles.filter (fun s => s.name = n)).getLast?

/-- `build_dependency_order`, lines 16-109: the outer `none` is exhausted fuel, the inner one the
function's own `None`. -/
def order (styles : List (Style B)) : Option (Option (List (Style B))) :=
  let adj := parents styles
  let ks := keys styles
  match hasCycle adj (ks.length + 1) ks ([], []) with
  | none => none
  | some true => some none
  | some false =>
    match topo adj ks (ks.length + 1) (inDegree styles, (ks.filter (fun n => inDegree styles n = 0)).reverse) [] with
    | none => none
    | some res =>
      let res := res.filterMap (lookup styles)
      some (if res.length = styles.length then some res else none)

/-- `resolve_styles_with_inheritance`, analysis.rs lines 69-90. -/
def resolveOrdered (fromStyle : Style B → Option R) (withParent : Style B → R → Option R) (scale : R → R)
    (l : List (Style B)) : Map Str R :=
  l.foldl (fun m s =>
    let r := match s.parent with
      | some p => (match m.get p with
        | some pr => withParent s pr
        | none => fromStyle s)
      | none => fromStyle s
    match r with
    | some x => m.insert s.name (scale x)
    | none => m) []

/-- The fall-back, analysis.rs lines 49-57. -/
def resolvePlain (fromStyle : Style B → Option R) (scale : R → R) (l : List (Style B)) : Map Str R :=
  l.foldl (fun m s =>
    match fromStyle s with
    | some x => m.insert s.name (scale x)
    | none => m) []

/-- `analyze_all_styles` for one styles section, analysis.rs lines 41-66. -/
def analyze (fromStyle : Style B → Option R) (withParent : Style B → R → Option R) (scale : R → R)
    (styles : List (Style B)) : Option (Map Str R) :=
  match order styles with
  | none => none
  | some (some l) => some (resolveOrdered fromStyle withParent scale l)
  | some none => some (resolvePlain fromStyle scale styles)

end Verif.Styles
