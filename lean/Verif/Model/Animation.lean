import Verif.Model.Transform
/-!
# Animation tracks — `crates/ass-renderer/src/animation/{timing,track,value,state,controller}.rs`

`f32` numbers are exact rationals: rounding, infinities and NaN are not modelled.  The parser of `f32` and `powf` are parameters.
Times are `u32`, the ends of whole-number animations `i32`; arithmetic beyond these is a panic.
-/
namespace Verif.Animation
open Verif
open Verif.Color (Rgba)
open Verif.Transform (trimStartStr trimEndChar clamp mixByte)

/-- `AnimationInterpolation`, timing.rs lines 10-17. -/
inductive Interp where
  | linear | smooth | smoother
deriving DecidableEq

/-- `AnimationTiming`, timing.rs lines 37-44. -/
structure Timing where
  start : Nat
  stop : Nat
  accel : Rat
deriving DecidableEq

/-- `AnimationTag`, timing.rs lines 21-30. -/
structure Tag where
  t1 : Option Nat
  t2 : Option Nat
  accel : Option Rat
  modifiers : List Str

/-- `AnimatedValue`, value.rs lines 5-41. -/
inductive Value where
  | integer (a b : Int)
  | float (a b : Rat)
  | color (a b : Rgba)
  | position (a b : Rat × Rat)
  | scale (a b : Rat × Rat)
deriving DecidableEq

/-- `AnimatedResult`, value.rs lines 80-91. -/
inductive Result where
  | integer (n : Int)
  | float (x : Rat)
  | color (c : Rgba)
  | position (p : Rat × Rat)
  | scale (p : Rat × Rat)
deriving DecidableEq

/-- `AnimationTrack`, track.rs lines 13-22. -/
structure Track where
  property : Str
  timing : Timing
  value : Value
  interp : Interp
deriving DecidableEq

/-- `AnimationTiming::progress`, timing.rs lines 57-75. -/
def progress (powf : Rat → Rat → Rat) (t : Timing) (now : Nat) : Rat :=
  if now ≤ t.start then 0
  else if t.stop ≤ now then 1
  else
    let linear := ((now - t.start : Nat) : Rat) / ((t.stop - t.start : Nat) : Rat)
    if Transform.abs (t.accel - 1) < 1 / 1000 then linear else powf linear t.accel

/-- `apply_interpolation`, `smooth_step` and `smoother_step`, track.rs lines 48-65. -/
def ease : Interp → Rat → Rat
  | .linear, t => t
  | .smooth, t => t * t * (3 - 2 * t)
  | .smoother, t => t * t * t * (t * (t * 6 - 15) + 10)

/-- Whether a number fits `i32`. -/
def i32Ok (n : Int) : Bool := -2147483648 ≤ n && n ≤ 2147483647

/-- `f32 as i32` for numbers that fit. -/
def trunc (x : Rat) : Int := if x < 0 then x.ceil else x.floor

/-- `from + (to - from) * t`. -/
def mix (a b t : Rat) : Rat := a + (b - a) * t

/-- `AnimatedValue::interpolate`, value.rs lines 45-75. -/
def interpolate (v : Value) (p : Rat) : Outcome Result :=
  let t := clamp p
  match v with
  | .integer a b =>
    if i32Ok (b - a) then
      let n := a + trunc (((b - a : Int) : Rat) * t)
      if i32Ok n then .ok (.integer n) else .panic
    else .panic
  | .float a b => .ok (.float (mix a b t))
  | .color a b => .ok (.color ⟨mixByte a.r b.r t, mixByte a.g b.g t, mixByte a.b b.b t, mixByte a.a b.a t⟩)
  | .position a b => .ok (.position (mix a.1 b.1 t, mix a.2 b.2 t))
  | .scale a b => .ok (.scale (mix a.1 b.1 t, mix a.2 b.2 t))

/-- `AnimationTrack::evaluate`, track.rs lines 41-45. -/
def Track.evaluate (powf : Rat → Rat → Rat) (t : Track) (now : Nat) : Outcome Result :=
  interpolate t.value (ease t.interp (progress powf t.timing now))

/-- `AnimationState`, state.rs lines 14-16. -/
abbrev State := List (Str × Result)

/-- `set_property`, state.rs lines 27-33. -/
def setProperty (name : Str) (v : Result) : State → State
  | [] => [(name, v)]
  | e :: s => if e.1 = name then (e.1, v) :: s else e :: setProperty name v s

/-- `get_property`, state.rs lines 36-41. -/
def getProperty (s : State) (name : Str) : Option Result := (s.find? (fun e => decide (e.1 = name))).map (·.2)

/-- The number in a result. -/
def Result.number? : Result → Option Rat
  | .float x => some x
  | _ => none

/-- `font_size`, state.rs lines 44-52. -/
def fontSize (s : State) : Option Rat := (getProperty s "fs".toList).bind Result.number?

/-- `scale`, state.rs lines 55-78. -/
def scale (s : State) : Option (Rat × Rat) :=
  match (getProperty s "fscx".toList).bind Result.number?, (getProperty s "fscy".toList).bind Result.number? with
  | some x, some y => some (x, y)
  | some x, none => some (x, 100)
  | none, some y => some (100, y)
  | none, none => none

/-- `rotation`, state.rs lines 81-89. -/
def rotation (s : State) : Option Rat := (getProperty s "frz".toList).bind Result.number?

/-- The colour in a result. -/
def Result.color? : Result → Option Rgba
  | .color c => some c
  | _ => none

/-- `color`, state.rs lines 92-100. -/
def color (s : State) : Option Rgba := (getProperty s "c".toList).bind Result.color?

/-- The loop of `evaluate`, controller.rs lines 161-164. -/
def evaluateFrom (powf : Rat → Rat → Rat) (now : Nat) : State → List Track → Outcome State
  | s, [] => .ok s
  | s, t :: ts => match t.evaluate powf now with
    | .ok r => evaluateFrom powf now (setProperty t.property r s) ts
    | .err => .err
    | .panic => .panic

/-- `AnimationController::evaluate`, controller.rs lines 158-167.  The controller is its list of tracks. -/
def evaluate (powf : Rat → Rat → Rat) (tracks : List Track) (now : Nat) : Outcome State := evaluateFrom powf now [] tracks

/-- The condition in `is_active` and `active_tracks`. -/
def Track.active (now : Nat) (t : Track) : Bool := t.timing.start ≤ now && now ≤ t.timing.stop

/-- `is_active`, controller.rs lines 170-174. -/
def isActive (tracks : List Track) (now : Nat) : Bool := tracks.any (Track.active now)

/-- `active_tracks`, controller.rs lines 177-182. -/
def activeTracks (tracks : List Track) (now : Nat) : List Track := tracks.filter (Track.active now)

/-- `extract_values`, controller.rs lines 194-200.  The slice panics when the closing parenthesis is before the opening one. -/
def extractValues (m : Str) : Outcome (Option (List Str)) :=
  match m.dropWhile (· != '(') with
  | [] => .ok none
  | _ :: rest =>
    if ')' ∈ m.takeWhile (· != '(') then .panic
    else if ')' ∈ rest then .ok (some (splitOn ',' (rest.takeWhile (· != ')'))))
    else .ok none

/-- The text without the marks around the digits, controller.rs lines 205 and 230. -/
def cleaned (s : Str) : Str := trimEndChar '&' (trimStartStr "&H".toList s.length s)

/-- `parse_color`, controller.rs lines 203-225. -/
def parseColor (s : Str) : Option Rgba :=
  let p := cleaned s
  if byteLen p = 6 then
    (parseUnsigned 16 u32Bound p).map (fun v => ⟨v % 256, v / 256 % 256, v / 65536 % 256, 255⟩)
  else if byteLen p = 8 then
    (parseUnsigned 16 u32Bound p).map (fun v => ⟨v % 256, v / 256 % 256, v / 65536 % 256, 255 - v / 16777216 % 256⟩)
  else none

/-- `parse_alpha`, controller.rs lines 228-233. -/
def parseAlpha (s : Str) : Option Nat := (parseUnsigned 16 256 (cleaned s)).map (fun v => 255 - v)

/-- The names that `parse_modifier_animation` asks for, with the property and the reading of the two values,
controller.rs lines 68-152: the prefixes of one branch, the property it sets, and the values. -/
def branches (f32 : Str → Option Rat) : List (List Str × Str × (Str → Str → Value)) :=
  [ (["\\fscx".toList], "fscx".toList, fun a b => .float ((f32 a).getD 100) ((f32 b).getD 100)),
    (["\\fscy".toList], "fscy".toList, fun a b => .float ((f32 a).getD 100) ((f32 b).getD 100)),
    (["\\fs".toList], "fs".toList, fun a b => .float ((f32 a).getD 20) ((f32 b).getD 20)),
    (["\\frz".toList, "\\fr".toList], "frz".toList, fun a b => .float ((f32 a).getD 0) ((f32 b).getD 0)),
    (["\\c".toList, "\\1c".toList], "c".toList,
      fun a b => .color ((parseColor a).getD ⟨255, 255, 255, 255⟩) ((parseColor b).getD ⟨255, 255, 255, 255⟩)),
    (["\\alpha".toList], "alpha".toList,
      fun a b => .integer (((parseAlpha a).getD 255 : Nat) : Int) (((parseAlpha b).getD 255 : Nat) : Int)) ]

/-- One branch once its name has been found, for instance controller.rs lines 70-81. -/
def branch (m : Str) (timing : Timing) (property : Str) (value : Str → Str → Value) : Outcome (Option Track) :=
  match extractValues m with
  | .ok (some [a, b]) => .ok (some ⟨property, timing, value a b, .linear⟩)
  | .ok _ => .ok none
  | .err => .err
  | .panic => .panic

/-- The chain of `if`s. -/
def firstBranch (m : Str) (timing : Timing) : List (List Str × Str × (Str → Str → Value)) → Outcome (Option Track)
  | [] => .ok none
  | b :: bs => if b.1.any (fun p => startsWith p m) then branch m timing b.2.1 b.2.2 else firstBranch m timing bs

/-- `parse_modifier_animation`, controller.rs lines 59-155. -/
def parseModifier (f32 : Str → Option Rat) (m : Str) (timing : Timing) : Outcome (Option Track) :=
  firstBranch m timing (branches f32)

/-- The loop of `add_from_tag`, controller.rs lines 48-53. -/
def addModifiers (f32 : Str → Option Rat) (timing : Timing) : List Track → List Str → Outcome (List Track)
  | tracks, [] => .ok tracks
  | tracks, m :: ms => match parseModifier f32 m timing with
    | .ok (some t) => addModifiers f32 timing (tracks ++ [t]) ms
    | .ok none => addModifiers f32 timing tracks ms
    | .err => .err
    | .panic => .panic

/-- `add_from_tag`, controller.rs lines 35-56.  The argument of `unwrap_or` is computed in any case. -/
def addFromTag (f32 : Str → Option Rat) (tracks : List Track) (tag : Tag) (eventStart eventEnd : Nat) : Outcome (List Track) :=
  let start := eventStart + tag.t1.getD 0
  if u32Bound ≤ start then .panic
  else if eventEnd < eventStart then .panic
  else
    let stop := eventStart + tag.t2.getD (eventEnd - eventStart)
    if u32Bound ≤ stop then .panic
    else addModifiers f32 ⟨start, stop, tag.accel.getD 1⟩ tracks tag.modifiers

end Verif.Animation
