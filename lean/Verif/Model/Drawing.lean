import Verif.Model.Str
import Verif.Model.Outcome
import Verif.Model.Segment
/-!
# Drawings — `crates/ass-renderer/src/pipeline/{drawing/{mod,parse,spline}.rs,build/drawing.rs,animation.rs}`

Numbers (`f32` in the code) are exact rationals and `str::parse::<f32>` is the parameter `num`.  The calls made on the path builder
of `tiny_skia` are the result; what that library makes of them is not modelled.
-/
namespace Verif.Drawing
open Verif

abbrev Pt := Rat × Rat

/-- `DrawCommand`, mod.rs lines 19-41. -/
inductive Cmd where
  | moveTo (p : Pt)
  | moveToNoDraw (p : Pt)
  | lineTo (p : Pt)
  | bezierTo (a b c : Pt)
  | spline (l : List Pt)
  | extendSpline (l : List Pt)
  | closePath
deriving DecidableEq

/-! ## Parsing, parse.rs -/

/-- A word that is complete, lines 199-202, 204-207 and 214-216. -/
def flush (cur : Str) : List Str := if cur = [] then [] else [cur]

/-- `tokenize_drawing_commands`, lines 185-219, with the word begun so far.  `is_ascii_alphabetic` and `to_lowercase` of such a letter
are Lean's `isAlpha` and `toLower`. -/
def tokenize : Str → Str → List Str
  | cur, [] => flush cur
  | cur, c :: s =>
    if c = '\\' then flush cur
    else if isWs c then flush cur ++ tokenize [] s
    else if c.isAlpha then flush cur ++ [c.toLower] :: tokenize [] s
    else tokenize (cur ++ [c]) s

/-- `is_command`, lines 222-224. -/
def isCommand (t : Str) : Bool := t ∈ [['m'], ['n'], ['l'], ['b'], ['s'], ['p'], ['c']]

/-- The loops over pairs of coordinates, lines 38-43, 53-58, 71-76, 121-129 and 151-159; `none` is an unreadable coordinate. -/
def pairs (num : Str → Option Rat) : List Str → Option (List Pt × List Str)
  | a :: b :: r =>
    if isCommand a then some ([], a :: b :: r)
    else match num a, num b with
      | some x, some y => (pairs num r).map fun p => ((x, y) :: p.1, p.2)
      | _, _ => none
  | l => some ([], l)

/-- The loop over six coordinates, lines 89-105. -/
def sixes (num : Str → Option Rat) : List Str → Option (List (Pt × Pt × Pt) × List Str)
  | a :: b :: c :: d :: e :: f :: r =>
    if isCommand a then some ([], a :: b :: c :: d :: e :: f :: r)
    else match num a, num b, num c, num d, num e, num f with
      | some x1, some y1, some x2, some y2, some x3, some y3 =>
        (sixes num r).map fun p => (((x1, y1), (x2, y2), (x3, y3)) :: p.1, p.2)
      | _, _, _, _, _, _ => none
  | l => some ([], l)

/-- `f32::abs`. -/
def absR (x : Rat) : Rat := if x < 0 then -x else x

/-- The spline closed, lines 133-137. -/
def closed (l : List Pt) : List Pt :=
  match l.head?, l.getLast? with
  | some first, some last =>
    if absR (first.1 - last.1) > 1 / 100 ∨ absR (first.2 - last.2) > 1 / 100 then l ++ [first] else l
  | _, _ => l

/-- The checks of lines 60-66, 78-84 and 107-113: the last command so far must be of the right kind. -/
def endsIn (kind : Cmd → Bool) (acc : List Cmd) : Bool :=
  match acc.getLast? with
  | some c => kind c
  | none => false

def isNoDraw : Cmd → Bool
  | .moveToNoDraw _ => true
  | _ => false

def isLine : Cmd → Bool
  | .lineTo _ => true
  | _ => false

def isBezier : Cmd → Bool
  | .bezierTo .. => true
  | _ => false

/-- The commands so far, if they pass the check. -/
def checked (kind : Cmd → Bool) (acc : List Cmd) (rest : List Str) : Option (List Cmd × List Str) :=
  if endsIn kind acc then some (acc, rest) else none

/-- The command `m`, lines 27-49. -/
def moveCmd (num : Str → Option Rat) (acc : List Cmd) : List Str → Option (List Cmd × List Str)
  | a :: b :: r =>
    match num a, num b with
    | some x, some y => (pairs num r).map fun p => (acc ++ .moveTo (x, y) :: p.1.map .lineTo, p.2)
    | _, _ => none
  | _ => none

/-- The commands `s` and `p`, lines 115-168. -/
def splineCmd (num : Str → Option Rat) (mk : List Pt → Cmd) (acc : List Cmd) (r : List Str) : Option (List Cmd × List Str) :=
  match pairs num r with
  | none => none
  | some (l, rest) =>
    if 3 ≤ l.length then some (acc ++ [mk l], rest) else if l = [] then some (acc, rest) else none

/-- One turn of the loop of lines 25-179 on the token `t`. -/
def step (num : Str → Option Rat) (acc : List Cmd) (t : Str) (r : List Str) : Option (List Cmd × List Str) :=
  if t = ['m'] then moveCmd num acc r
  else if t = ['n'] then (pairs num r).bind fun p => checked isNoDraw (acc ++ p.1.map .moveToNoDraw) p.2
  else if t = ['l'] then (pairs num r).bind fun p => checked isLine (acc ++ p.1.map .lineTo) p.2
  else if t = ['b'] then (sixes num r).bind fun p => checked isBezier (acc ++ p.1.map fun c => .bezierTo c.1 c.2.1 c.2.2) p.2
  else if t = ['s'] then splineCmd num (fun l => .spline (closed l)) acc r
  else if t = ['p'] then splineCmd num .extendSpline acc r
  else if t = ['c'] then some (acc ++ [.closePath], r)
  else some (acc, r)

/-- The loop; the first argument bounds the number of turns. -/
def loop (num : Str → Option Rat) : Nat → List Cmd → List Str → Option (List Cmd)
  | _, acc, [] => some acc
  | 0, acc, _ :: _ => some acc
  | k + 1, acc, t :: r =>
    match step num acc t r with
    | some (acc', r') => loop num k acc' r'
    | none => none

/-- `parse_draw_commands`, lines 20-182; `none` is an error. -/
def parseCommands (num : Str → Option Rat) (text : Str) : Option (List Cmd) :=
  loop num (tokenize [] text).length [] (tokenize [] text)

/-! ## Splines, spline.rs -/

/-- A Bézier curve without its start. -/
abbrev Curve := Pt × Pt × Pt

/-- The control points for `s`, lines 62-63. -/
def plainCurve (p0 p1 p2 p3 : Pt) : Curve :=
  ((p1.1 + (p2.1 - p0.1) / 6, p1.2 + (p2.2 - p0.2) / 6), (p2.1 - (p3.1 - p1.1) / 6, p2.2 - (p3.2 - p1.2) / 6), p2)

/-- The control points for `p`, lines 36-44. -/
def extendedCurve (p0 p1 p2 p3 : Pt) : Curve :=
  ((p1.1 + (1 / 2) * (p2.1 - p0.1) / 3, p1.2 + (1 / 2) * (p2.2 - p0.2) / 3),
    (p2.1 - (1 / 2) * (p3.1 - p1.1) / 3, p2.2 - (1 / 2) * (p3.2 - p1.2) / 3), p2)

/-- The loops of lines 25-47 and 51-66, with the point before and the point at the index. -/
def curves (mk : Pt → Pt → Pt → Pt → Curve) (p0 p1 : Pt) : List Pt → List Curve
  | [] => []
  | p2 :: rest => mk p0 p1 p2 (rest.headD p2) :: curves mk p1 p2 rest

/-- `spline_to_bezier`, lines 16-70. -/
def splineToBezier (l : List Pt) (extended : Bool) : List Curve :=
  match l with
  | [] => []
  | p :: rest => if l.length < 3 then [] else curves (if extended then extendedCurve else plainCurve) p p rest

/-! ## The path, mod.rs lines 44-109 -/

/-- Calls on the path builder. -/
inductive Call where
  | move (p : Pt)
  | line (p : Pt)
  | cubic (a b c : Pt)
  | close
deriving DecidableEq

/-- What a command calls, lines 57-106. -/
def calls : Cmd → List Call
  | .moveTo p => [.move p]
  | .moveToNoDraw p => [.move p]
  | .lineTo p => [.line p]
  | .bezierTo a b c => [.cubic a b c]
  | .spline l => if 3 ≤ l.length then (splineToBezier l false).map fun c => .cubic c.1 c.2.1 c.2.2 else []
  | .extendSpline l => if 3 ≤ l.length then (splineToBezier l true).map fun c => .cubic c.1 c.2.1 c.2.2 else []
  | .closePath => [.close]

/-- `process_drawing_commands`, up to `builder.finish()`. -/
def process (num : Str → Option Rat) (text : Str) : Option (List Call) :=
  match parseCommands num text with
  | none => none
  | some [] => none
  | some l => some (l.flatMap calls)

/-! ## Placing, build/drawing.rs -/

/-- `calculate_move_progress`, animation.rs lines 4-12. -/
def progress (time t1 t2 : Nat) : Rat :=
  if time ≤ t1 then 0 else if time ≥ t2 then 1 else ((time - t1 : Nat) : Rat) / ((t2 - t1 : Nat) : Rat)

/-- The times of a movement, lines 84-92; the additions of `u32` may overflow.  `start` and `stop` are the times of the event. -/
def moveTimes (start stop t1 t2 : Nat) : Outcome (Nat × Nat) :=
  if t1 = 0 ∧ t2 = 0 then .ok (start, stop)
  else if start + t1 < u32Bound ∧ start + t2 < u32Bound then .ok (start + t1, start + t2)
  else .panic

/-- Where the drawing goes, in pixels, lines 79-102.  `w` and `h` are the size of the frame, `sx` and `sy` that size divided by the
script's resolution. -/
def anchor (w h : Nat) (sx sy : Rat) (pos : Option Pt) (mv : Option Segment.Move) (start stop time : Nat) : Outcome Pt :=
  match pos with
  | some p => .ok (p.1 * sx, p.2 * sy)
  | none => match mv with
    | some m => (match moveTimes start stop m.t1 m.t2 with
      | .ok (a, b) => .ok ((m.x1 + (m.x2 - m.x1) * progress time a b) * sx, (m.y1 + (m.y2 - m.y1) * progress time a b) * sy)
      | _ => .panic)
    | none => .ok ((w : Rat) / 2, (h : Rat) / 2)

/-- A box: left, top, right, bottom. -/
structure Box where
  l : Rat
  t : Rat
  r : Rat
  b : Rat
deriving DecidableEq

/-- The offset for an alignment, lines 120-141 (`%` keeps the sign of the dividend). -/
def offset (a : Int) (b : Box) : Pt :=
  (if a.tmod 3 = 1 then -b.l else if a.tmod 3 = 2 then -(b.l + b.r) / 2 else if a.tmod 3 = 0 then -b.r else -(b.l + b.r) / 2,
   if 1 ≤ a ∧ a ≤ 3 then -b.b else if 4 ≤ a ∧ a ≤ 6 then -(b.t + b.b) / 2 else if 7 ≤ a ∧ a ≤ 9 then -b.t else -(b.t + b.b) / 2)

/-- The box of the shape on the frame, lines 73-76, 105 and 144-147: the shape's box in script units, scaled and moved.  The level
of the drawing mode (`\p`) is in the tags but is not read. -/
def placed (_level : Nat) (sx sy : Rat) (at_ : Pt) (a : Int) (b : Box) : Box :=
  let s : Box := ⟨b.l * sx, b.t * sy, b.r * sx, b.b * sy⟩
  let o := offset a s
  ⟨s.l + (at_.1 + o.1), s.t + (at_.2 + o.2), s.r + (at_.1 + o.1), s.b + (at_.2 + o.2)⟩

end Verif.Drawing
