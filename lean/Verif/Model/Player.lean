import Verif.Model.Parser
import Verif.Model.Time
import Verif.Model.Outcome
/-!
# The debug player — `crates/ass-renderer/src/debug/player/{mod,playback,render,testing}.rs`

The clock (`Instant::now`) is a parameter, in milliseconds; a command reads it once.  `f32` arithmetic is taken to be exact.
Rendering is a parameter: a script and a time in centiseconds give a frame or an error.  Printing and saving of frames are
left out, and so are the times it took to render.
-/
namespace Verif.Player
open Verif
open Verif.Parser

/-- `DebugPlayer`, mod.rs lines 22-46.  `start_time_ms` is always 0 and `frame_interval_ms` always 40. -/
structure Player (F : Type) where
  script : Option Str
  time : Nat
  speed : Rat
  playing : Bool
  looping : Bool
  fin : Nat
  cache : List (Nat × F)
  cacheOn : Bool
  maxCache : Nat
  since : Option Rat
  origin : Nat
  acc : Rat

/-- `DebugPlayer::new`, mod.rs lines 49-78. -/
def new (F : Type) : Player F := ⟨none, 0, 1, false, false, 0, [], true, 100, none, 0, 0⟩

/-- The end of an event in the loop of `load_script`, mod.rs lines 111-113; `none`: arithmetic overflow. -/
def latest (m : Nat) (stop : Str) : Option Nat :=
  match Time.parseAssTime stop with
  | .ok e => if e * 10 < 2 ^ 32 then some (max m (e * 10)) else none
  | .err => some m
  | .overflow => none

/-- The ends of the events of all sections, mod.rs lines 107-109. -/
def ends (s : Script) : List Str :=
  s.sections.flatMap (fun sec => match sec with | .events l => l.map (fun e => e.1.stop) | _ => [])

/-- mod.rs lines 105-124. -/
def duration (s : Script) : Option Nat :=
  ((ends s).foldlM latest 0).map (fun m => if m > 0 then m else 10000)

/-- `load_script`, mod.rs lines 98-141; `none`: a panic. -/
def load (p : Player F) (src : Str) : Option (Player F) :=
  match (parse src).bind duration with
  | some d => some { p with fin := d, cache := [], script := some src }
  | none => none

/-- `frame_cache.keys().min()` removed, playback.rs lines 17-19, render.rs lines 57-59. -/
def dropLeast (c : List (Nat × F)) : List (Nat × F) :=
  match (c.map (·.1)).min? with
  | some k => c.filter (fun e => e.1 ≠ k)
  | none => c

/-- The loop of `set_max_cache_size`, playback.rs lines 15-20. -/
def trim : Nat → Nat → List (Nat × F) → List (Nat × F)
  | 0, _, c => c
  | n + 1, size, c => if c.length > size then trim n size (dropLeast c) else c

/-- `set_cache_enabled`, playback.rs lines 5-10. -/
def setCache (p : Player F) (b : Bool) : Player F := { p with cacheOn := b, cache := if b then p.cache else [] }

/-- `set_max_cache_size`, playback.rs lines 12-21. -/
def setMax (p : Player F) (n : Nat) : Player F := { p with maxCache := n, cache := trim p.cache.length n p.cache }

/-- `play`, playback.rs lines 23-32. -/
def play (p : Player F) (now : Rat) : Player F := { p with playing := true, since := some now, origin := p.time, acc := 0 }

/-- The time counted since `start`, playback.rs line 38. -/
def elapsed (p : Player F) (start now : Rat) : Rat := (now - start) * p.speed

/-- `pause`, playback.rs lines 34-48. -/
def pause (p : Player F) (now : Rat) : Player F :=
  { p with playing := false, since := none,
           acc := if p.playing then p.acc + (match p.since with | some s => elapsed p s now | none => 0) else p.acc }

/-- `stop`, playback.rs lines 50-56. -/
def stop (p : Player F) : Player F := { p with playing := false, time := 0, since := none, acc := 0 }

/-- Playing starts anew from the time set, playback.rs lines 60-64, 88-92, 101-105. -/
def restart (p : Player F) (now : Rat) : Player F :=
  if p.playing then { p with since := some now, origin := p.time, acc := 0 } else p

/-- `seek`, playback.rs lines 58-69. -/
def seek (p : Player F) (t : Nat) (now : Rat) : Player F := restart { p with time := min t p.fin } now

/-- `set_speed`, playback.rs lines 71-83. -/
def setSpeed (p : Player F) (v now : Rat) : Player F :=
  if p.playing then
    match p.since with
    | some s => { p with acc := p.acc + elapsed p s now, since := some now, origin := p.time, speed := max (1 / 10) (min v 10) }
    | none => { p with speed := max (1 / 10) (min v 10) }
  else { p with speed := max (1 / 10) (min v 10) }

/-- `step_forward`, playback.rs lines 85-97; `none`: arithmetic overflow. -/
def forward (p : Player F) (now : Rat) : Option (Player F) :=
  if p.time + 40 < 2 ^ 32 then some (restart { p with time := min (p.time + 40) p.fin } now) else none

/-- `step_backward`, playback.rs lines 99-110. -/
def backward (p : Player F) (now : Rat) : Player F := restart { p with time := p.time - 40 } now

/-- `PlayerFrame`, report.rs lines 9-14. -/
structure Shown (F : Type) where
  frame : F
  timestamp : Nat
  number : Nat
deriving DecidableEq, Repr

/-- The frame put into the cache, render.rs lines 50-63. -/
def remember (p : Player F) (key : Nat) (f : F) : List (Nat × F) :=
  if p.cacheOn then
    (if p.cache.length ≥ p.maxCache then dropLeast p.cache else p.cache).filter (fun e => e.1 ≠ key) ++ [(key, f)]
  else p.cache

/-- A frame rendered, render.rs lines 35-80. -/
def fresh (render : Str → Nat → Option F) (p : Player F) : Player F × Option (Shown F) :=
  match p.script.bind (fun src => render src (p.time / 10)) with
  | some f => ({ p with cache := remember p (p.time / 40 * 40) f }, some ⟨f, p.time, p.time / 40⟩)
  | none => (p, none)

/-- The frame in the cache, render.rs lines 14-20. -/
def cached (p : Player F) : Option F :=
  if p.cacheOn then (p.cache.find? (fun e => e.1 = p.time / 40 * 40)).map (·.2) else none

/-- `render_current_frame`, render.rs lines 12-81; `none`: an error. -/
def current (render : Str → Nat → Option F) (p : Player F) : Player F × Option (Shown F) :=
  match cached p with
  | some f => (p, some ⟨f, p.time, p.time / 40⟩)
  | none => fresh render p

/-- What a command answers. -/
inductive Reply (F : Type) where
  | done
  | frame (s : Shown F)
  | failed
  | crashed
deriving DecidableEq, Repr

/-- A rendered frame as an answer. -/
def reply (r : Player F × Option (Shown F)) : Player F × Reply F :=
  (r.1, match r.2 with | some s => .frame s | none => .failed)

/-- `as u32`. -/
def toU32 (x : Rat) : Nat := min x.floor.toNat (2 ^ 32 - 1)

/-- The time reached, render.rs lines 94-111. -/
def arrive (render : Str → Nat → Option F) (p : Player F) (t : Nat) (now : Rat) : Player F × Reply F :=
  if t ≥ p.fin then
    if p.looping then reply (current render { p with time := 0, since := some now, origin := 0, acc := 0 })
    else ({ p with playing := false, time := p.fin, since := none }, .done)
  else reply (current render { p with time := t })

/-- `update`, render.rs lines 83-112. -/
def update (render : Str → Nat → Option F) (p : Player F) (now : Rat) : Player F × Reply F :=
  if p.playing then
    match p.since with
    | some s =>
      if p.origin + toU32 (elapsed p s now + p.acc) < 2 ^ 32 then arrive render p (p.origin + toU32 (elapsed p s now + p.acc)) now
      else (p, .crashed)
    | none => reply (current render p)
  else (p, .done)

/-- The commands. -/
inductive Cmd where
  | load (src : Str)
  | cache (on : Bool)
  | limit (n : Nat)
  | play
  | pause
  | stop
  | seek (t : Nat)
  | speed (v : Rat)
  | faster
  | slower
  | forward
  | backward
  | setLoop (on : Bool)
  | toggleLoop
  | show
  | update
deriving DecidableEq, Repr

/-- A command that may panic. -/
def orCrash (p : Player F) : Option (Player F) → Player F × Reply F
  | some q => (q, .done)
  | none => (p, .crashed)

/-- A command at a reading of the clock.  `setLoop`, `toggleLoop`, `faster`, `slower`: playback.rs lines 134-140, 155-169. -/
def step (render : Str → Nat → Option F) (p : Player F) (c : Cmd) (now : Rat) : Player F × Reply F :=
  match c with
  | .load src => orCrash p (load p src)
  | .cache b => (setCache p b, .done)
  | .limit n => (setMax p n, .done)
  | .play => (play p now, .done)
  | .pause => (pause p now, .done)
  | .stop => (stop p, .done)
  | .seek t => (seek p t now, .done)
  | .speed v => (setSpeed p v now, .done)
  | .faster => (setSpeed p (min (p.speed * (3 / 2)) 10) now, .done)
  | .slower => (setSpeed p (max (p.speed / (3 / 2)) (1 / 10)) now, .done)
  | .forward => orCrash p (forward p now)
  | .backward => (backward p now, .done)
  | .setLoop b => ({ p with looping := b }, .done)
  | .toggleLoop => ({ p with looping := !p.looping }, .done)
  | .show => reply (current render p)
  | .update => update render p now

/-- Commands one after the other. -/
def run (render : Str → Nat → Option F) : List (Cmd × Rat) → Player F → Player F
  | [], p => p
  | (c, now) :: l, p => run render l (step render p c now).1

/-- `chunk.len() == 4 && chunk[3] > 0` for some chunk, testing.rs lines 46-51. -/
def hasContent : List Nat → Bool
  | _ :: _ :: _ :: a :: l => decide (a > 0) || hasContent l
  | _ => false

/-- `TestReport`, report.rs lines 17-23, without times. -/
structure Report where
  points : List (Nat × Bool)
  withContent : Nat
  empty : Nat
deriving DecidableEq, Repr

/-- The loop of `run_automatic_test`, testing.rs lines 34-66; `none`: an error. -/
def testLoop (render : Nat → Option (List Nat)) : List Nat → Report → Option Report
  | [], r => some r
  | t :: l, r => match render (t / 10) with
    | none => none
    | some px => testLoop render l
        ⟨r.points ++ [(t, hasContent px)], if hasContent px then r.withContent + 1 else r.withContent,
          if hasContent px then r.empty else r.empty + 1⟩

/-- `run_automatic_test`, testing.rs lines 12-76. -/
def autoTest (render : Str → Nat → Option (List Nat)) (p : Player F) (times : List Nat) : Option Report :=
  p.script.bind (fun src => testLoop (render src) times ⟨[], 0, 0⟩)

end Verif.Player
