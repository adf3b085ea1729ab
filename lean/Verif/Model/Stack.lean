import Verif.Model.Collision
import Verif.Model.Segment
/-!
# Stacking simultaneous subtitles — `crates/ass-renderer/src/pipeline/build/{run,position,mod}.rs`

Numbers are exact rationals instead of `f32`.  The layers made for one event (`process_event`, run.rs lines 19-61) are the
parameter `draw`: they do not depend on the other events.  The caches it fills are not modelled.
-/
namespace Verif.Stack
open Verif
open Verif.Collision (Box Resolver)

/-- What `process_events` reads of an event: `layer` is `layer.parse::<i32>().unwrap_or(0)`, `start` is
`start_time_cs().unwrap_or(0)` (run.rs lines 233-236). -/
structure Ev where
  layer : Int
  start : Nat
  style : Str
  text : Str
deriving DecidableEq

/-- `TextData`, pipeline/mod.rs; `rest` stands for the fields that stacking neither reads nor writes. -/
structure Text where
  x : Rat
  y : Rat
  size : Rat
  text : Str
  rest : Nat
deriving DecidableEq

/-- `IntermediateLayer`, pipeline/mod.rs lines 72-79; `rest` as above. -/
inductive Layer where
  | text (t : Text)
  | raster (y : Nat) (rest : Nat)
  | vector (rest : Nat)
deriving DecidableEq

/-- The fields of the pipeline used here, build/mod.rs lines 23-53: the height given to the collision resolver, the DPI factor and
the alignment field of every style. -/
structure Pipe where
  screenH : Rat
  dpi : Rat
  styles : Map Str Str

/-- `new`, build/mod.rs lines 62-81: what the software backend creates (backends/software/mod.rs line 166), for any frame. -/
def Pipe.new (styles : Map Str Str) : Pipe := ⟨1080, 9 / 10, styles⟩

/-- The order of run.rs lines 232-240. -/
def le (a b : Ev) : Bool := decide (a.layer < b.layer) || (decide (a.layer = b.layer) && decide (a.start ≤ b.start))

/-- One step of a stable insertion sort. -/
def insertEv (x : Ev) : List Ev → List Ev
  | [] => [x]
  | a :: l => if le a x then a :: insertEv x l else x :: a :: l

/-- `sort_by` (stable), run.rs lines 231-240. -/
def sorted (l : List Ev) : List Ev := l.foldl (fun acc x => insertEv x acc) []

/-- `event_is_positioned`, position.rs lines 13-15. -/
def pinned (e : Ev) : Bool := containsStr "\\pos".toList e.text || containsStr "\\move".toList e.text

/-- The style's row, position.rs lines 30-34. -/
def styleRow (p : Pipe) (e : Ev) : Nat :=
  match (p.styles.get e.style).bind Segment.parseU8 with
  | some a => if 1 ≤ a ∧ a ≤ 9 then a else 2
  | none => 2

/-- `effective_alignment`, position.rs lines 19-35. -/
def row (p : Pipe) (e : Ev) : Nat :=
  match splitOnceStr "\\an".toList e.text with
  | some (_, c :: _) => if '1' ≤ c ∧ c ≤ '9' then c.toNat - 48 else styleRow p e
  | _ => styleRow p e

/-- One layer in the loop of `event_bounding_box`, position.rs lines 60-70; `none` is the state before the first text. -/
def extend (dpi : Rat) (acc : Option (Rat × Rat × Rat × Rat)) (l : Layer) : Option (Rat × Rat × Rat × Rat) :=
  match l with
  | .text t =>
    let w := (t.text.length : Rat) * t.size * (1 / 2)
    let h := t.size / max dpi (1 / 100)
    match acc with
    | none => some (t.x, t.y, t.x + w, t.y + h)
    | some (x0, y0, x1, y1) => some (min x0 t.x, min y0 t.y, max x1 (t.x + w), max y1 (t.y + h))
  | _ => acc

/-- `event_bounding_box`, position.rs lines 57-72. -/
def box (dpi : Rat) (ls : List Layer) : Option Box :=
  (ls.foldl (extend dpi) none).map fun (x0, y0, x1, y1) => ⟨x0, y0, x1 - x0, y1 - y0⟩

/-- `offset_layers_y` for one layer, position.rs lines 76-86 (`as u32` of a large number saturates). -/
def shift (dy : Rat) : Layer → Layer
  | .text t => .text { t with y := t.y + dy }
  | .raster y r => .raster (min (max ((y : Rat) + dy) 0).floor.toNat 4294967295) r
  | .vector r => .vector r

/-- The body of the loop, run.rs lines 249-270.  The vertical margin of line 256 is never read. -/
def step (p : Pipe) (draw : Ev → Outcome (List Layer)) (r : Resolver) (e : Ev) : Outcome (List Layer × Resolver) :=
  match draw e with
  | .err => .err
  | .panic => .panic
  | .ok ls =>
    if pinned e then .ok (ls, r)
    else
      match box p.dpi ls with
      | none => .ok (ls, r)
      | some b =>
        let (q, r') := r.findPosition ⟨b, e.layer, row p e, 0⟩
        let dy := q.y - b.y
        .ok (if dy > 1 / 2 ∨ dy < -(1 / 2) then ls.map (shift dy) else ls, r')

/-- The loop, run.rs lines 248-271. -/
def loop (p : Pipe) (draw : Ev → Outcome (List Layer)) : Resolver → List Ev → Outcome (List Layer)
  | _, [] => .ok []
  | r, e :: l =>
    match step p draw r e with
    | .err => .err
    | .panic => .panic
    | .ok (ls, r') =>
      match loop p draw r' l with
      | .err => .err
      | .panic => .panic
      | .ok rest => .ok (ls ++ rest)

/-- `process_events`, run.rs lines 218-274.  The size of the frame is used only for the vertical margin that nothing reads. -/
def processEvents (p : Pipe) (_frame : Nat × Nat) (draw : Ev → Outcome (List Layer)) (evs : List Ev) : Outcome (List Layer) :=
  loop p draw ⟨p.screenH, [], 2⟩ (sorted evs)

end Verif.Stack
