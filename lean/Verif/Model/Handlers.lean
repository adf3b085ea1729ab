import Verif.Model.Registry
import Verif.Model.Float
/-!
# The built-in tag handlers — `crates/ass-core/plugin/tags`

For each handler the function that decides between `Processed` and `Failed` (`process` and `validate` decide
alike).
-/
namespace Verif.Handlers
open Verif Verif.Registry
open Verif.Override (isDig parseI32)

/-- The loop of `is_numeric`, position/validation.rs lines 26-37 (also misc/validation.rs lines 25-36,
transform/validation.rs lines 27-39 and clip_handler.rs lines 81-92); `i` counts characters, `len` bytes. -/
def numLoop (len start : Nat) : Nat → Bool → Str → Bool
  | _, _, [] => true
  | i, dec, c :: s =>
    if isDig c then numLoop len start (i + 1) dec s
    else if c = '.' then
      if dec || i == start || i == len - 1 then false else numLoop len start (i + 1) true s
    else false

/-- `is_numeric`, position/validation.rs lines 9-40 (also misc/validation.rs lines 8-39 and clip_handler.rs
lines 64-95). -/
def isNumeric (s : Str) : Bool :=
  match s with
  | [] => false
  | c :: t =>
    if c = '-' ∨ c = '+' then
      if byteLen s = 1 then false else numLoop (byteLen s) 1 1 false t
    else numLoop (byteLen s) 0 0 false s

/-- `validate_numeric_arg`, transform/validation.rs lines 9-42; `ShortRotationTagHandler::validate`,
misc/handlers.rs lines 51-59. -/
def numeric (args : Str) : Outcome Bool := .ok (isNumeric (trim args))

/-- A slice of a string, panicking off boundaries, with a test on it. -/
def onSlice (s : Str) (a b : Nat) (f : Str → Bool) : Outcome Bool :=
  match sliceBytes s a b with
  | some t => .ok (f t)
  | none => .panic

/-- `&H`, `n` hexadecimal digits and `&`: color/validation.rs lines 13-18 (`n` = 6: length 9, slice `2..8`)
and lines 27-32 (`n` = 2: length 5, slice `2..4`). -/
def hexArgs (n : Nat) (a : Str) : Outcome Bool :=
  if !startsWith "&H".toList a || !endsWith ['&'] a || byteLen a ≠ n + 3 then .ok false
  else onSlice a 2 (n + 2) (fun t => t.all isHexDigit)

/-- `validate_color_args`, color/validation.rs lines 9-19. -/
def color (args : Str) : Outcome Bool := hexArgs 6 (trim args)

/-- `validate_alpha_args`, color/validation.rs lines 23-33. -/
def alpha (args : Str) : Outcome Bool := hexArgs 2 (trim args)

/-- `PositionTagHandler::validate`, position_handler.rs lines 29-45. -/
def pos (args : Str) : Outcome Bool :=
  let a := trim args
  match splitOnce ',' a with
  | some (x, y) => .ok (isNumeric (trim x) && isNumeric (trim y))
  | none => .ok false

/-- `MoveTagHandler::validate`, move_handler.rs lines 31-46. -/
def move (args : Str) : Outcome Bool :=
  let a := trim args
  if a = [] then .ok false
  else
    let parts := (splitOn ',' a).map trim
    if parts.length ≠ 4 && parts.length ≠ 6 then .ok false else .ok (parts.all isNumeric)

/-- A test on what stands between the parentheses, e.g. misc/handlers.rs lines 82-90. -/
def inParens (args : Str) (f : Str → Bool) : Outcome Bool :=
  let a := trim args
  if !startsWith "(".toList a || !endsWith ")".toList a then .ok false
  else onSlice a 1 (byteLen a - 1) f

/-- `OriginTagHandler::validate`, misc/handlers.rs lines 81-100. -/
def org (args : Str) : Outcome Bool :=
  inParens args (fun t =>
    let parts := (splitOn ',' t).map trim
    if parts.length ≠ 2 then false else parts.all isNumeric)

/-- `SimpleFadeTagHandler::validate`, fade_handlers.rs lines 100-126. -/
def fad (args : Str) : Outcome Bool :=
  inParens args (fun t =>
    let parts := (splitOn ',' t).map trim
    if parts.length ≠ 2 then false else parts.all (fun p => (parseU32 p).isSome))

/-- An alpha of `\fade`, fade_handlers.rs lines 51-58. -/
def fadeAlpha (p : Str) : Bool :=
  match parseU32 p with
  | some v => !decide (v > 255)
  | none => false

/-- A time of `\fade`, fade_handlers.rs lines 63-70. -/
def fadeTime (p : Str) : Bool :=
  match parseI32 p with
  | some v => !decide (v < 0)
  | none => false

/-- `FadeTagHandler::validate`, fade_handlers.rs lines 32-74. -/
def fade (args : Str) : Outcome Bool :=
  inParens args (fun t =>
    let parts := (splitOn ',' t).map trim
    if parts.length ≠ 7 then false
    else (parts.take 3).all fadeAlpha && ((parts.take 7).drop 3).all fadeTime)

/-- `TransformTagHandler::validate`, transform_handlers.rs lines 32-50. -/
def transform (args : Str) : Outcome Bool :=
  inParens args (fun t => !decide (t = []) && !decide (trim t = []))

/-- `ClipTagHandler::validate`, clip_handler.rs lines 32-59. -/
def clip (args : Str) : Outcome Bool :=
  inParens args (fun t =>
    let content := trim t
    if content = [] then false
    else
      let parts := (splitOn ',' content).map trim
      if parts.length = 4 then parts.all isNumeric
      else content.any (fun c => c ∈ ['m', 'n', 'l', 'b', 's', 'p', 'c']))

/-- `args.trim().parse::<u32>().is_ok()`, karaoke/handlers.rs lines 30-32, 55-57, 80-82, 117-119,
font_handlers.rs lines 81-89. -/
def unsigned (args : Str) : Outcome Bool := .ok (parseU32 (trim args)).isSome

/-- `BoldTagHandler::validate`, formatting.rs lines 59-71. -/
def bold (args : Str) : Outcome Bool :=
  let t := trim args
  if t = [] ∨ t = "0".toList ∨ t = "1".toList then .ok true
  else match parseU32 t with
    | some w => .ok (decide (100 ≤ w ∧ w ≤ 900) && decide (w % 100 = 0))
    | none => .ok false

/-- `matches!(args.trim(), ..)`: formatting.rs lines 89-92, 110-113, 131-134, advanced/handlers.rs lines 89-92,
alignment/handlers.rs lines 32-37, 63-68, 93-95, special/handlers.rs lines 28-30, 51-53, 74-76. -/
def oneOf (l : List Str) (args : Str) : Outcome Bool := .ok (decide (trim args ∈ l))

/-- `FontSizeTagHandler::validate`, font_handlers.rs lines 52-60. -/
def fontSize (args : Str) : Outcome Bool :=
  if trim args = [] then .ok false else .ok ((Float.parseF32 (trim args)).any Float.positive)

/-- `BorderTagHandler::validate` and `ShadowTagHandler::validate`, advanced/handlers.rs lines 30-38, 61-69. -/
def width (args : Str) : Outcome Bool :=
  if trim args = [] then .ok false else .ok ((Float.parseF32 (trim args)).any Float.nonNegative)

/-- `FontNameTagHandler::validate`, font_handlers.rs lines 29-31. -/
def fontName (args : Str) : Outcome Bool := .ok (!decide (trim args = []))

/-- `ResetTagHandler::validate`, misc/handlers.rs lines 27-30. -/
def reset (_ : Str) : Outcome Bool := .ok true

/-- A handler with a name and a validator; validators do not panic (`C49_total`). -/
def handler (n : Str) (v : Str → Outcome Bool) : Tag :=
  ⟨n, fun args => if v args = .ok true then .processed else .failed⟩

/-- Names and validators. -/
def table : List (Str × (Str → Outcome Bool)) :=
  [("b".toList, bold),
   ("i".toList, oneOf ["0".toList, "1".toList, []]),
   ("u".toList, oneOf ["0".toList, "1".toList, []]),
   ("s".toList, oneOf ["0".toList, "1".toList, []]),
   ("be".toList, oneOf ["0".toList, "1".toList]),
   ("a".toList, oneOf ["1".toList, "2".toList, "3".toList, "5".toList, "6".toList, "7".toList, "9".toList,
      "10".toList, "11".toList]),
   ("an".toList, oneOf ["1".toList, "2".toList, "3".toList, "4".toList, "5".toList, "6".toList, "7".toList,
      "8".toList, "9".toList]),
   ("q".toList, oneOf ["0".toList, "1".toList, "2".toList, "3".toList]),
   ("n".toList, oneOf [[]]), ("N".toList, oneOf [[]]), ("h".toList, oneOf [[]]),
   ("k".toList, unsigned), ("kf".toList, unsigned), ("ko".toList, unsigned), ("kt".toList, unsigned),
   ("fe".toList, unsigned), ("fn".toList, fontName), ("r".toList, reset),
   ("fr".toList, numeric), ("frz".toList, numeric), ("frx".toList, numeric), ("fry".toList, numeric),
   ("fscx".toList, numeric), ("fscy".toList, numeric), ("fax".toList, numeric), ("fay".toList, numeric),
   ("fsp".toList, numeric),
   ("c".toList, color), ("1c".toList, color), ("2c".toList, color), ("3c".toList, color), ("4c".toList, color),
   ("alpha".toList, alpha), ("1a".toList, alpha), ("2a".toList, alpha), ("3a".toList, alpha), ("4a".toList, alpha),
   ("pos".toList, pos), ("move".toList, move), ("org".toList, org), ("fad".toList, fad), ("fade".toList, fade),
   ("t".toList, transform), ("clip".toList, clip),
   ("fs".toList, fontSize), ("bord".toList, width), ("shad".toList, width)]

/-- The built-in handlers (`create_*_handlers`). -/
def builtin : List Tag := table.map (fun p => handler p.1 p.2)

/-- A registry with the built-in handlers registered one after another. -/
def standard : Reg := run (builtin.map .addTag)

end Verif.Handlers
