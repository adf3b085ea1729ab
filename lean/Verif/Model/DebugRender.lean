import Verif.Model.Parser
import Verif.Model.Transform
/-!
# The debug renderer and the colour diagnostic

`DebugRenderer` (crates/ass-renderer/src/debug/mod.rs lines 54-332, util.rs, info.rs) and `ColorDiagnostic`
(crates/ass-renderer/src/debug/color_diagnostic.rs).  The renderer inside is a parameter, a function from its state and the
time it is given to a frame or an error; so are the hash of the bytes, the measured time and the success of saving the files.
Printing is left out.  Arithmetic in `u32` is checked, as in a debug build: an overflow panics.
-/
namespace Verif.DebugRender
open Verif Verif.Parser Verif.Ast

/-- `Frame`, crates/ass-renderer/src/renderer/frame.rs lines 15-30: its size and its bytes, four for a pixel. -/
structure Frame where
  w : Nat
  h : Nat
  bytes : List Nat
  deriving DecidableEq, Repr

/-- `BoundingBoxInfo`, info.rs lines 56-65. -/
structure Box where
  minX : Nat
  minY : Nat
  maxX : Nat
  maxY : Nat
  deriving DecidableEq, Repr

/-- The variables of the loop of `collect_debug_info`, mod.rs lines 130-134. -/
structure Acc where
  count : Nat
  box : Box
  deriving DecidableEq, Repr

/-- One round of the inner loop, mod.rs lines 139-146; `none` when the index overflows. -/
def step (f : Frame) (s : Acc) (x y : Nat) : Option Acc :=
  let idx := (y * f.w + x) * 4
  if idx ≥ 4294967296 then none
  else match f.bytes[idx + 3]? with
    | some a =>
      if a > 0 then
        some ⟨s.count + 1, ⟨min s.box.minX x, min s.box.minY y, max s.box.maxX x, max s.box.maxY y⟩⟩
      else some s
    | none => some s

/-- The pixels in the order of the two loops, mod.rs lines 137-138. -/
def visited (f : Frame) : List (Nat × Nat) := (List.range f.h).flatMap fun y => (List.range f.w).map fun x => (x, y)

/-- The two loops, mod.rs lines 137-148. -/
def scan (f : Frame) : List (Nat × Nat) → Acc → Option Acc
  | [], s => some s
  | c :: l, s => match step f s c.1 c.2 with
    | none => none
    | some s => scan f l s

/-- `FrameDebugInfo`, info.rs lines 14-37, without the list of dirty regions, the misses of the cache and the name of the
backend, which are constants. -/
structure Info where
  timestamp : Nat
  active : Nat
  elapsed : Rat
  memory : Nat
  hits : Nat
  checksum : Nat
  count : Nat
  box : Option Box
  deriving DecidableEq, Repr

/-- `collect_debug_info`, mod.rs lines 128-177. -/
def collect (hash : List Nat → Nat) (f : Frame) (time : Nat) (elapsed : Rat) : Option Info :=
  match scan f (visited f) ⟨0, ⟨f.w, f.h, 0, 0⟩⟩ with
  | none => none
  | some s => some ⟨time, 0, elapsed, f.bytes.length, 0, hash f.bytes, s.count, if s.count > 0 then some s.box else none⟩

/-- `DebugRenderer`, mod.rs lines 54-65: the renderer inside, the history, and whether files are saved. -/
structure Dbg (σ : Type) where
  inner : σ
  history : List Info
  saves : Bool

/-- What the surroundings do: the renderer, the hash, the clock and the file system. -/
structure World (σ : Type) where
  draw : σ → Nat → Option Frame × σ
  hash : List Nat → Nat
  elapsed : σ → Nat → Rat
  save : Frame → Info → Bool

/-- `render_frame_debug`, mod.rs lines 97-126. -/
def render {σ : Type} (w : World σ) (d : Dbg σ) (time : Nat) : Outcome (Frame × Info) × Dbg σ :=
  match w.draw d.inner time with
  | (none, s) => (.err, { d with inner := s })
  | (some f, s) =>
    match collect w.hash f time (w.elapsed d.inner time) with
    | none => (.panic, { d with inner := s })
    | some i =>
      let d' : Dbg σ := { d with inner := s, history := d.history ++ [i] }
      if d.saves then
        if w.save f i then (.ok (f, i), d') else (.err, d')
      else (.ok (f, i), d')

/-- `clear_history`, mod.rs lines 308-310. -/
def clearHistory {σ : Type} (d : Dbg σ) : Dbg σ := { d with history := [] }

/-- What a user can do with it. -/
inductive Op where
  | render (time : Nat)
  | clear
  | saveTo

/-- One call; `set_output_dir` is mod.rs lines 90-92. -/
def act {σ : Type} (w : World σ) (d : Dbg σ) : Op → Dbg σ
  | .render t => (render w d t).2
  | .clear => clearHistory d
  | .saveTo => { d with saves := true }

/-- `FrameComparison`, info.rs lines 69-78. -/
structure Comparison where
  sameChecksum : Bool
  pixelDiff : Nat
  timeDiff : Rat
  boxChanged : Bool
  deriving DecidableEq, Repr

/-- `compare_frames`, mod.rs lines 315-331.  The casts to `i32` change nothing for fewer than `2^31` pixels. -/
def compareFrames {σ : Type} (d : Dbg σ) (i j : Nat) : Option Comparison :=
  match d.history[i]?, d.history[j]? with
  | some a, some b =>
    some ⟨a.checksum == b.checksum, ((a.count : Int) - (b.count : Int)).natAbs, a.elapsed - b.elapsed, a.box != b.box⟩
  | _, _ => none

/-! ## The colour diagnostic -/

/-- `ColorDebugInfo`, color_diagnostic.rs lines 108-116. -/
structure ColorInfo where
  hex : Str
  hasAlpha : Bool
  alpha : Nat
  red : Nat
  green : Nat
  blue : Nat
  expected : Str
  deriving DecidableEq, Repr

/-- The name of a colour, color_diagnostic.rs lines 136-146. -/
def colorName (r g b : Nat) : Str :=
  if r = 255 ∧ g = 255 ∧ b = 255 then "WHITE".toList
  else if r = 255 ∧ g = 0 ∧ b = 0 then "RED".toList
  else if r = 0 ∧ g = 255 ∧ b = 0 then "GREEN".toList
  else if r = 0 ∧ g = 0 ∧ b = 255 then "BLUE".toList
  else if r = 255 ∧ g = 255 ∧ b = 0 then "YELLOW".toList
  else if r = 0 ∧ g = 255 ∧ b = 255 then "CYAN".toList
  else if r = 255 ∧ g = 0 ∧ b = 255 then "MAGENTA".toList
  else if r = 0 ∧ g = 0 ∧ b = 0 then "BLACK".toList
  else "CUSTOM".toList

/-- The answer for a colour that cannot be read, color_diagnostic.rs lines 160-168. -/
def invalid : ColorInfo := ⟨"INVALID".toList, false, 0, 0, 0, 0, "ERROR".toList⟩

/-- `parse_color_debug`, color_diagnostic.rs lines 118-169. -/
def parseColor (s : Str) : ColorInfo :=
  match stripPrefix ['&', 'H'] (Transform.trimEndChar '&' s) with
  | none => invalid
  | some hex =>
    match parseUnsigned 16 u32Bound hex with
    | none => invalid
    | some v =>
      let r := v % 256
      let g := v / 256 % 256
      let b := v / 65536 % 256
      if byteLen hex ≥ 8 then ⟨hex, true, v / 16777216 % 256, r, g, b, colorName r g b⟩
      else ⟨hex, false, 0, r, g, b, colorName r g b⟩

/-- `StyleColors`, color_diagnostic.rs lines 98-105. -/
structure StyleColors where
  name : Str
  primary : Str
  parsed : ColorInfo
  secondary : Str
  outline : Str
  back : Str
  deriving DecidableEq, Repr

/-- The entry for a style, color_diagnostic.rs lines 17-30. -/
def entry (s : Style) : StyleColors := ⟨s.name, s.primary, parseColor s.primary, s.secondary, s.outlineColour, s.back⟩

/-- `find_section(SectionType::Styles)`: the first section of styles. -/
def firstStyles : List Section → List Style
  | [] => []
  | .styles l :: _ => l.map (·.1)
  | _ :: r => firstStyles r

/-- `find_section(SectionType::Events)`: the first section of events. -/
def firstEvents : List Section → List Event
  | [] => []
  | .events l :: _ => l.map (·.1)
  | _ :: r => firstEvents r

/-- `ColorReport`, color_diagnostic.rs lines 92-95. -/
structure Report where
  styles : List StyleColors
  overrides : Bool

/-- `analyze_script`, color_diagnostic.rs lines 11-44. -/
def analyze (secs : List Section) : Report :=
  ⟨(firstStyles secs).map entry,
   (firstEvents secs).any fun e => containsStr "\\c".toList e.text || containsStr "\\1c".toList e.text⟩

end Verif.DebugRender
