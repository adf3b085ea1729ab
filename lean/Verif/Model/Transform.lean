import Verif.Model.Color
import Verif.Model.StrX
import Verif.Model.Outcome
/-!
# Animated transforms — `crates/ass-renderer/src/pipeline/{transform/{mod,parse}.rs,build/animation.rs}`

`f32` numbers are exact rationals: rounding, infinities and NaN are not modelled.  The parser of `f32`, `powf` and the sine of
a multiple of π are parameters.
-/
namespace Verif.Transform
open Verif
open Verif.Color (Rgba parseBgrColor)

/-- `AnimatableTag`, mod.rs lines 27-58. -/
inductive Tag where
  | fontSize (v : Rat)
  | scaleX (v : Rat)
  | scaleY (v : Rat)
  | spacing (v : Rat)
  | rotationZ (v : Rat)
  | rotationX (v : Rat)
  | rotationY (v : Rat)
  | primary (c : Rgba)
  | secondary (c : Rgba)
  | outline (c : Rgba)
  | shadow (c : Rgba)
  | alpha (n : Nat)
  | border (v : Rat)
  | shadowDepth (v : Rat)
  | blur (v : Rat)
deriving DecidableEq

/-- `TransformAnimation`, mod.rs lines 14-23. -/
structure Animation where
  start_ms : Nat
  end_ms : Nat
  accel : Rat
  target_tags : List Tag
deriving DecidableEq

/-- `str::trim_start_matches` for a string. -/
def trimStartStr (p : Str) : Nat → Str → Str
  | 0, s => s
  | n + 1, s => match stripPrefix p s with
    | some t => trimStartStr p n t
    | none => s

/-- `str::trim_end_matches` for a character. -/
def trimEndChar (c : Char) (s : Str) : Str := (s.reverse.dropWhile (· == c)).reverse

/-- `parse_alpha_arg`, parse.rs lines 125-132. -/
def parseAlphaArg (args : Str) : Option Nat :=
  let hex := trimStartStr "&h".toList args.length (trimStartStr "&H".toList args.length args)
  (parseUnsigned 16 256 hex).map (fun a => 255 - a)

/-- `create_animatable_tag`, parse.rs lines 100-119. -/
def createTag (f32 : Str → Option Rat) (name args : Str) : Option Tag :=
  if name = "fs".toList then (f32 args).map .fontSize
  else if name = "fscx".toList then (f32 args).map .scaleX
  else if name = "fscy".toList then (f32 args).map .scaleY
  else if name = "fsp".toList then (f32 args).map .spacing
  else if name = "frz".toList ∨ name = "fr".toList then (f32 args).map .rotationZ
  else if name = "frx".toList then (f32 args).map .rotationX
  else if name = "fry".toList then (f32 args).map .rotationY
  else if name = "c".toList ∨ name = "1c".toList then (parseBgrColor args).map .primary
  else if name = "2c".toList then (parseBgrColor args).map .secondary
  else if name = "3c".toList then (parseBgrColor args).map .outline
  else if name = "4c".toList then (parseBgrColor args).map .shadow
  else if name = "alpha".toList then (parseAlphaArg args).map .alpha
  else if name = "bord".toList then (f32 args).map .border
  else if name = "shad".toList then (f32 args).map .shadowDepth
  else if name = "blur".toList ∨ name = "be".toList then (f32 args).map .blur
  else none

/-- `char::is_ascii_alphabetic`. -/
def isLetter (c : Char) : Bool := ('a' ≤ c && c ≤ 'z') || ('A' ≤ c && c ≤ 'Z')

/-- `char::is_ascii_digit`. -/
def isDigit (c : Char) : Bool := '0' ≤ c && c ≤ '9'

/-- The name of a tag and what follows it, parse.rs lines 54-74. -/
def tagName : Str → Str × Str
  | [] => ([], [])
  | d :: s =>
    if isDigit d then (d :: s.takeWhile isLetter, s.dropWhile isLetter)
    else ((d :: s).takeWhile isLetter, (d :: s).dropWhile isLetter)

/-- `parse_animatable_tags`, parse.rs lines 46-98; the first number bounds the steps and is at least the length. -/
def parseTags (f32 : Str → Option Rat) : Nat → Str → List Tag
  | 0, _ => []
  | _ + 1, [] => []
  | n + 1, c :: s =>
    if c = '\\' then
      let p := tagName s
      if p.1 = [] then parseTags f32 n s
      else (createTag f32 p.1 (p.2.takeWhile (· != '\\'))).toList ++ parseTags f32 n (p.2.dropWhile (· != '\\'))
    else parseTags f32 n s

/-- `f32 as u32`. -/
def asU32 (v : Rat) : Nat := min v.floor.toNat 4294967295

/-- The numbers before the tags, mod.rs lines 86-121. -/
def params (f32 : Str → Option Rat) (s : Str) : Nat × Nat × Rat :=
  match (splitOn ',' (trimEndChar ',' s)).map trim with
  | [] => (0, 0, 1)
  | [p] =>
    if p = [] then (0, 0, 1)
    else match f32 p with
      | some v => if v < 10 then (0, 0, v) else (0, asU32 v, 1)
      | none => (0, 0, 1)
  | [a, b] => ((parseU32 a).getD 0, (parseU32 b).getD 0, 1)
  | a :: b :: c :: _ => ((parseU32 a).getD 0, (parseU32 b).getD 0, (f32 c).getD 1)

/-- `TransformAnimation::parse`, mod.rs lines 62-136.  Both parentheses are one byte, so that the slice takes them off. -/
def parse (f32 : Str → Option Rat) (args : Str) : Option Animation :=
  let args := trim args
  if args.head? = some '(' ∧ args.getLast? = some ')' then
    let inner := (args.drop 1).dropLast
    if '\\' ∈ inner then
      let p := params f32 (inner.takeWhile (· != '\\'))
      let text := inner.dropWhile (· != '\\')
      match parseTags f32 text.length text with
      | [] => none
      | t :: ts => some ⟨p.1, p.2.1, p.2.2, t :: ts⟩
    else none
  else none

/-- `f32::clamp(0.0, 1.0)`. -/
def clamp (t : Rat) : Rat := if t < 0 then 0 else if 1 < t then 1 else t

/-- `f32::abs`. -/
def abs (t : Rat) : Rat := if t < 0 then -t else t

/-- `apply_acceleration_curve`, parse.rs lines 17-43; `sinPi t` is the sine of `π t`. -/
def curve (powf : Rat → Rat → Rat) (sinPi : Rat → Rat) (t accel : Rat) : Rat :=
  let t := clamp t
  if abs (accel - 1) < 1 / 1000 then t
  else if abs (accel - 1 / 2) < 1 / 1000 then 1 - (1 - t) * (1 - t)
  else if abs (accel - 2) < 1 / 1000 then t * t
  else if abs (accel - 3) < 1 / 1000 then t * t * t
  else if accel < 0 then t + sinPi t * (1 / 10) * abs accel
  else powf t accel

/-- `calculate_progress`, mod.rs lines 144-162. -/
def progress (powf : Rat → Rat → Rat) (sinPi : Rat → Rat) (a : Animation) (current full : Nat) : Rat :=
  let end_ms := if a.end_ms > 0 then a.end_ms else full
  if current ≤ a.start_ms then 0
  else if end_ms ≤ a.start_ms ∨ current ≥ end_ms then 1
  else curve powf sinPi (((current - a.start_ms : Nat) : Rat) / ((end_ms - a.start_ms : Nat) : Rat)) a.accel

/-- `interpolate_f32`, mod.rs lines 166-168. -/
def mixNumber (a b p : Rat) : Rat := a + (b - a) * p

/-- `f32 as u8`. -/
def asU8 (v : Rat) : Nat := min v.floor.toNat 255

/-- `interpolate_alpha`, mod.rs lines 181-183. -/
def mixByte (a b : Nat) (p : Rat) : Nat := asU8 ((a : Rat) + ((b : Rat) - (a : Rat)) * p)

/-- `interpolate_color`, mod.rs lines 171-178. -/
def mixColor (a b : Rgba) (p : Rat) : Rgba := ⟨mixByte a.r b.r p, mixByte a.g b.g p, mixByte a.b b.b p, mixByte a.a b.a p⟩

/-- The fields of `ProcessedTags` that transforms change. -/
structure State where
  size : Option Rat
  scale_x : Option Rat
  scale_y : Option Rat
  spacing : Option Rat
  rotation_z : Option Rat
  rotation_x : Option Rat
  rotation_y : Option Rat
  primary : Option Rgba
  secondary : Option Rgba
  outline : Option Rgba
  shadow : Option Rgba
  alpha : Option Nat
  border : Option Rat
  shadow_depth : Option Rat
  blur : Option Rat
deriving DecidableEq

/-- The colours and the font size of the style. -/
structure Defaults where
  primary : Rgba
  secondary : Rgba
  outline : Rgba
  shadow : Rgba
  size : Rat
deriving DecidableEq

/-- A finished transform, animation.rs lines 43-77. -/
def setFinal (s : State) : Tag → State
  | .fontSize v => { s with size := some v }
  | .scaleX v => { s with scale_x := some v }
  | .scaleY v => { s with scale_y := some v }
  | .spacing v => { s with spacing := some v }
  | .rotationZ v => { s with rotation_z := some v }
  | .rotationX v => { s with rotation_x := some v }
  | .rotationY v => { s with rotation_y := some v }
  | .primary c => { s with primary := some c }
  | .secondary c => { s with secondary := some c }
  | .outline c => { s with outline := some c }
  | .shadow c => { s with shadow := some c }
  | .alpha n => { s with alpha := some n }
  | .border v => { s with border := some v }
  | .shadowDepth v => { s with shadow_depth := some v }
  | .blur v => { s with blur := some v }

/-- A running transform, animation.rs lines 85-170. -/
def setMixed (d : Defaults) (p : Rat) (s : State) : Tag → State
  | .fontSize v => { s with size := some (mixNumber (s.size.getD d.size) v p) }
  | .scaleX v => { s with scale_x := some (mixNumber (s.scale_x.getD 100) v p) }
  | .scaleY v => { s with scale_y := some (mixNumber (s.scale_y.getD 100) v p) }
  | .spacing v => { s with spacing := some (mixNumber (s.spacing.getD 0) v p) }
  | .rotationZ v => { s with rotation_z := some (mixNumber (s.rotation_z.getD 0) v p) }
  | .rotationX v => { s with rotation_x := some (mixNumber (s.rotation_x.getD 0) v p) }
  | .rotationY v => { s with rotation_y := some (mixNumber (s.rotation_y.getD 0) v p) }
  | .primary c => { s with primary := some (mixColor (s.primary.getD d.primary) c p) }
  | .secondary c => { s with secondary := some (mixColor (s.secondary.getD d.secondary) c p) }
  | .outline c => { s with outline := some (mixColor (s.outline.getD d.outline) c p) }
  | .shadow c => { s with shadow := some (mixColor (s.shadow.getD d.shadow) c p) }
  | .alpha n => { s with alpha := some (mixByte (s.alpha.getD 0) n p) }
  | .border v => { s with border := some (mixNumber (s.border.getD 0) v p) }
  | .shadowDepth v => { s with shadow_depth := some (mixNumber (s.shadow_depth.getD 0) v p) }
  | .blur v => { s with blur := some (mixNumber (s.blur.getD 0) v p) }

/-- One transform at a progress, animation.rs lines 39-172. -/
def applyAt (d : Defaults) (tags : List Tag) (p : Rat) (s : State) : State :=
  if p ≤ 0 ∨ p ≥ 1 then (if p ≥ 1 then tags.foldl setFinal s else s)
  else tags.foldl (setMixed d p) s

/-- All transforms at `relative`, animation.rs lines 25-173. -/
def applyAll (powf : Rat → Rat → Rat) (sinPi : Rat → Rat) (d : Defaults) (relative full : Nat) (s : State) :
    List Animation → State
  | [] => s
  | a :: as => applyAll powf sinPi d relative full (applyAt d a.target_tags (progress powf sinPi a relative full) s) as

/-- `apply_transform_animations`, animation.rs lines 10-174; times are centiseconds. -/
def apply (powf : Rat → Rat → Rat) (sinPi : Rat → Rat) (d : Defaults) (start stop current : Nat) (s : State)
    (transforms : List Animation) : Outcome State :=
  let full := min ((stop - start) * 10) 4294967295
  match transforms with
  | [] => .ok s
  | _ =>
    if current ≥ start then
      if (current - start) * 10 < 4294967296 then .ok (applyAll powf sinPi d ((current - start) * 10) full s transforms)
      else .panic
    else .ok (applyAll powf sinPi d 0 full s transforms)

end Verif.Transform
