/-!
# Collision resolver — `crates/ass-renderer/src/collision/{mod,resolver}.rs`

Coordinates are exact rationals instead of `f32`: rounding of sums, infinities and NaN are not modelled.
-/
namespace Verif.Collision

/-- `BoundingBox`, mod.rs lines 22-32. -/
structure Box where
  x : Rat
  y : Rat
  w : Rat
  h : Rat
deriving DecidableEq

/-- `intersects`, mod.rs lines 46-51. -/
def Box.intersects (a b : Box) : Bool :=
  decide (a.x < b.x + b.w) && decide (a.x + a.w > b.x) && decide (a.y < b.y + b.h) && decide (a.y + a.h > b.y)

/-- `expand`, mod.rs lines 66-73. -/
def Box.expand (b : Box) (m : Rat) : Box := ⟨b.x - m, b.y - m, b.w + m * 2, b.h + m * 2⟩

/-- `PositionedEvent`, mod.rs lines 82-98 (the three margins are never read and left out). -/
structure Ev where
  bbox : Box
  layer : Int
  alignment : Nat
  priority : Int
deriving DecidableEq

/-- `CollisionResolver`, resolver.rs lines 11-17. -/
structure Resolver where
  screenH : Rat
  placed : List Ev
  margin : Rat
deriving DecidableEq

/-- `new`, lines 21-28. -/
def Resolver.new (h : Rat) : Resolver := ⟨h, [], 2⟩

/-- `add_fixed`, lines 41-43. -/
def Resolver.addFixed (r : Resolver) (e : Ev) : Resolver := { r with placed := r.placed ++ [e] }

/-- The placed boxes in the way, lines 59-66. -/
def overlapping (placed : List Ev) (margin : Rat) (layer : Int) (b : Box) : List Box :=
  (placed.filter (fun e => decide (e.layer = layer) && (e.bbox.expand margin).intersects (b.expand margin))).map (·.bbox)

/-- `push_down`, line 53. -/
def pushDown (alignment : Nat) : Bool := !(decide (1 ≤ alignment) && decide (alignment ≤ 3))

/-- Lines 70-80: the next `y`.  `fold(f32::MIN, max)` over a non-empty list is its maximum. -/
def nextY (down : Bool) (margin : Rat) (b o : Box) (os : List Box) : Rat :=
  if down then (os.map (fun b => b.y + b.h)).foldl max (o.y + o.h) + margin * 2
  else (os.map (·.y)).foldl min o.y - b.h - margin * 2

/-- The loop, lines 58-81. -/
def search (placed : List Ev) (margin : Rat) (layer : Int) (down : Bool) : Nat → Box → Box
  | 0, b => b
  | k + 1, b =>
    match overlapping placed margin layer b with
    | [] => b
    | o :: os => search placed margin layer down k { b with y := nextY down margin b o os }

/-- `clamp(0, max)`. -/
def clamp (lo hi y : Rat) : Rat := if y < lo then lo else if y > hi then hi else y

/-- `find_position`, lines 51-90. -/
def Resolver.findPosition (r : Resolver) (e : Ev) : Box × Resolver :=
  let b := search r.placed r.margin e.layer (pushDown e.alignment) (r.placed.length + 1) e.bbox
  let maxY := max (r.screenH - b.h) 0
  let b := { b with y := clamp 0 maxY b.y }
  (b, { r with placed := r.placed ++ [{ e with bbox := b }] })

/-- The loop of `process_events`, lines 120-129. -/
def processLoop (threshold : Int) : Resolver → List Ev → List Ev × Resolver
  | r, [] => ([], r)
  | r, e :: l =>
    if e.priority ≥ threshold then
      let (l', r') := processLoop threshold (r.addFixed e) l
      (e :: l', r')
    else
      let (b, r1) := r.findPosition e
      let (l', r') := processLoop threshold r1 l
      ({ e with bbox := b } :: l', r')

/-- `process_events`, lines 114-130.  Negating the priority `i32::MIN` (line 116) is not modelled. -/
def Resolver.process (r : Resolver) (threshold : Int) (evs : List Ev) : List Ev × Resolver :=
  processLoop threshold { r with placed := [] }
    (evs.mergeSort (fun a b => decide (-a.priority ≤ -b.priority)))

/-! ## `find_free_position`, lines 138-176 -/

/-- `check_collision`, lines 139-141. -/
def checkCollision (b : Box) (existing : List Box) : Bool := existing.any (fun e => b.intersects e)

/-- First offset of the list at which the moved box passes `ok` and hits nothing. -/
def tryOffsets (b : Box) (existing : List Box) (ok : Rat → Bool) : List Rat → Option (Rat × Rat)
  | [] => none
  | d :: l =>
    if ok (b.y + d) && !checkCollision { b with y := b.y + d } existing then some (b.x, b.y + d)
    else tryOffsets b existing ok l

/-- `find_free_position`, lines 143-175; `step` is the distance of 10 units. -/
def findFree (step : Rat) (b : Box) (existing : List Box) (bounds : Box) : Option (Rat × Rat) :=
  match tryOffsets b existing (fun y => decide (y + b.h ≤ bounds.h)) ((List.range 20).map (fun i : Nat => (i : Rat) * step)) with
  | some p => some p
  | none => tryOffsets b existing (fun y => decide (y ≥ 0)) ((List.range' 1 19).map (fun i : Nat => -((i : Rat) * step)))

end Verif.Collision
