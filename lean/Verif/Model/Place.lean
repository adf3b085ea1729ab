import Verif.Model.Drawing
/-!
# Placing lines of text — `crates/ass-renderer/src/pipeline/build/{position,text/position,text/mod}.rs`

`f32` numbers are exact rationals; the parser of `f32` is the parameter `num`.  Shaping is not modelled: the width, height and
advance of every run of text are given.
-/
namespace Verif.Place
open Verif
open Verif.Drawing (Pt progress moveTimes)

/-- The fields of a style that place lines (`OwnedStyle`, style.rs lines 12-40). -/
structure Style where
  alignment : Str
  marginL : Str
  marginR : Str
  marginV : Str
deriving DecidableEq

/-- The state of the pipeline and the size of the frame: `w` and `h` are `context.width()` and `context.height()`. -/
structure Pipe where
  w : Nat
  h : Nat
  resX : Rat
  resY : Rat
  layout : Option (Rat × Rat)
  styles : Map Str Style
  default : Option Style

def Pipe.sx (p : Pipe) : Rat := (p.w : Rat) / p.resX
def Pipe.sy (p : Pipe) : Rat := (p.h : Rat) / p.resY

/-- The fields of an event that place it; the times are those of `start_time_cs` and `end_time_cs` with their defaults. -/
structure Ev where
  style : Str
  marginL : Str
  marginR : Str
  marginV : Str
  start : Nat
  stop : Nat

/-- A margin, position.rs lines 90-99, and inlined at lines 176-207. -/
def margin (num : Str → Option Rat) (ev : Str) (style : Option Str) : Rat :=
  let s := (style.bind num).getD 0
  if ev = [] ∨ ev = ['0'] then s else (num ev).getD s

/-- The map of legacy alignments, position.rs lines 221-231 and 270-279. -/
def mapped (a : Nat) : Nat := if a = 10 then 4 else if a = 11 then 5 else if a = 12 then 6 else a

/-- `calculate_position_from_alignment`, position.rs lines 161-257. -/
def posAlign (num : Str → Option Rat) (p : Pipe) (a : Nat) (e : Ev) : Pt :=
  let st := p.styles.get e.style
  let ml := margin num e.marginL (st.map (·.marginL)) * p.sx
  let mr := margin num e.marginR (st.map (·.marginR)) * p.sx
  let mv := margin num e.marginV (st.map (·.marginV))
  let b := mapped a
  (if b = 1 ∨ b = 4 ∨ b = 7 then ml
   else if b = 2 ∨ b = 5 ∨ b = 8 then (p.w : Rat) / 2
   else if b = 3 ∨ b = 6 ∨ b = 9 then (p.w : Rat) - mr
   else (p.w : Rat) / 2,
   (if 1 ≤ b ∧ b ≤ 3 then p.resY - mv
    else if 4 ≤ b ∧ b ≤ 6 then p.resY / 2
    else if 7 ≤ b ∧ b ≤ 9 then mv
    else p.resY - mv) * p.sy)

/-- `apply_alignment_offset`, position.rs lines 261-309. -/
def alignOffset (at_ : Pt) (w h : Rat) (a : Nat) : Pt :=
  let b := mapped a
  (if b = 1 ∨ b = 4 ∨ b = 7 then at_.1
   else if b = 2 ∨ b = 5 ∨ b = 8 then at_.1 - w / 2
   else if b = 3 ∨ b = 6 ∨ b = 9 then at_.1 - w
   else at_.1 - w / 2,
   if 1 ≤ b ∧ b ≤ 3 then at_.2 - h
   else if 4 ≤ b ∧ b ≤ 6 then at_.2 - h / 2
   else if 7 ≤ b ∧ b ≤ 9 then at_.2
   else at_.2 - h)

/-- From the coordinates of the layout to those of the script, position.rs lines 117-120 and 128-133. -/
def toScript (p : Pipe) (q : Pt) : Pt :=
  match p.layout with
  | some l => (q.1 * (p.resX / l.1), q.2 * (p.resY / l.2))
  | none => q

/-- The first two branches of `calculate_position_from_tags`, position.rs lines 109-154; the times may overflow. -/
def posTags (p : Pipe) (pos : Option Pt) (mv : Option Segment.Move) (e : Ev) (time : Nat) : Outcome (Option Pt) :=
  match pos with
  | some q => .ok (some ((toScript p q).1 * p.sx, (toScript p q).2 * p.sy))
  | none =>
    match mv with
    | some m =>
      let a := toScript p (m.x1, m.y1)
      let b := toScript p (m.x2, m.y2)
      (match moveTimes e.start e.stop m.t1 m.t2 with
       | .ok (t1, t2) => .ok (some ((a.1 + (b.1 - a.1) * progress time t1 t2) * p.sx, (a.2 + (b.2 - a.2) * progress time t1 t2) * p.sy))
       | _ => .panic)
    | none => .ok none

/-- A run of text: the tags that place it, and its measures.  `measure` is the width of the first pass (text/mod.rs lines 131-149),
`width`, `height` and `advance` are those of the shaped run, `fsx` its horizontal scale divided by 100. -/
structure Run where
  pos : Option Pt
  move : Option Segment.Move
  align : Option Nat
  measure : Rat
  width : Rat
  height : Rat
  advance : Rat
  fsx : Rat

/-- `LineLayout`, text/types.rs lines 42-50; `line_spacing_multiplier` is 1. -/
structure Layout where
  multi : Bool
  total : Rat
  lines : Nat
  index : Nat
  lineHeight : Rat
  offset : Rat

/-- The vertical anchor in a block of lines, text/position.rs lines 76-101 and 140-164. -/
def adjusted (l : Layout) (a : Nat) (y : Rat) : Rat :=
  if l.lines > 1 then
    (if 1 ≤ a ∧ a ≤ 3 then y - ((l.lines - 1 - l.index : Nat) : Rat) * l.lineHeight
     else if 7 ≤ a ∧ a ≤ 9 then y + l.offset
     else y + -(((l.lines : Rat) - 1) * l.lineHeight / 2) + l.offset)
  else y

/-- `position_segment`, text/position.rs lines 11-182.  The pen is `none` as long as it needs its initial position.  The result is
the position and the pen. -/
def positionSegment (num : Str → Option Rat) (p : Pipe) (e : Ev) (time dflt : Nat) (l : Layout) (r : Run) (pen : Option Rat) :
    Outcome (Pt × Option Rat) :=
  let a := r.align.getD dflt
  let lineWidth := if l.multi then l.total else r.width
  match posTags p r.pos r.move e time with
  | .ok (some at_) =>
    (match pen with
     | none => .ok (alignOffset at_ lineWidth r.height a, some (alignOffset at_ lineWidth r.height a).1)
     | some x => .ok ((x, (alignOffset at_ r.width r.height a).2), some x))
  | .ok none =>
    let at_ := posAlign num p a e
    let y := adjusted l a at_.2
    let h := if l.lines > 1 then l.lineHeight else r.height
    (match pen with
     | none => .ok (alignOffset (at_.1, y) lineWidth h a, some (alignOffset (at_.1, y) lineWidth h a).1)
     | some x => .ok ((x, (alignOffset (at_.1, y) r.width h a).2), some x))
  | .err => .err
  | .panic => .panic

/-- The runs of a line, text/mod.rs lines 166-323, with the pen; the pen advances at lines 318-320. -/
def runs (num : Str → Option Rat) (p : Pipe) (e : Ev) (time dflt : Nat) (l : Layout) : Option Rat → List Run → Outcome (List Pt)
  | _, [] => .ok []
  | pen, r :: rs =>
    match positionSegment num p e time dflt l r pen with
    | .ok (at_, pen') =>
      (match runs num p e time dflt l (pen'.map (· + r.advance * r.fsx)) rs with
       | .ok ps => .ok (at_ :: ps)
       | .err => .err
       | .panic => .panic)
    | .err => .err
    | .panic => .panic

/-- The sum of widths of a line with several runs, text/mod.rs lines 130-149. -/
def total (rs : List Run) : Rat := if rs.length > 1 then (rs.map (·.measure)).sum else 0

/-- The lines, text/mod.rs lines 125-330, from the given index and vertical offset on. -/
def lineLoop (num : Str → Option Rat) (p : Pipe) (e : Ev) (time dflt : Nat) (n : Nat) (lineHeight : Rat) :
    Nat → Rat → List (List Run) → Outcome (List (List Pt))
  | _, _, [] => .ok []
  | i, off, rs :: ls =>
    match runs num p e time dflt ⟨decide (rs.length > 1), total rs, n, i, lineHeight, off⟩ none rs with
    | .ok ps =>
      (match lineLoop num p e time dflt n lineHeight (i + 1) (off + lineHeight) ls with
       | .ok pss => .ok (ps :: pss)
       | .err => .err
       | .panic => .panic)
    | .err => .err
    | .panic => .panic

/-- The style of an event, run.rs lines 53-57. -/
def styleOf (p : Pipe) (name : Str) : Option Style := (p.styles.get name).or p.default

/-- `default_alignment`, text/defaults.rs lines 72-74. -/
def defaultAlignment (s : Option Style) : Nat := (s.map fun s => (Segment.parseU8 s.alignment).getD 2).getD 2

/-- Where the runs of an event's lines are drawn, text/mod.rs lines 92-332; drawings within lines are left out. -/
def place (num : Str → Option Rat) (p : Pipe) (e : Ev) (time : Nat) (lineHeight : Rat) (ls : List (List Run)) :
    Outcome (List (List Pt)) :=
  lineLoop num p e time (defaultAlignment (styleOf p e.style)) ls.length lineHeight 0 0 ls

end Verif.Place
