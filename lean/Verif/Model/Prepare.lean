import Verif.Model.InfoOps
import Verif.Model.Map
/-!
# What the renderer takes from a script — `crates/ass-renderer/src/pipeline/build/{run,style,mod}.rs`

Numbers (`f32` in the code) are exact rationals; `str::parse::<f32>` is the parameter `num`, `f32::to_string` is `shw` and
`str::to_lowercase` is `lower`.  The fonts loaded at line 84 are left out.
-/
namespace Verif.Prepare
open Verif
open Verif.Ast (Style)
open Verif.Parser (Section)

/-- The fields of `SoftwarePipeline` set from the script information, build/mod.rs lines 37-51.  The two layout resolutions are
always set together. -/
structure Settings where
  play : Rat × Rat
  layout : Option (Rat × Rat)
  scaled : Bool
  wrap : Nat
deriving DecidableEq

/-- `SoftwarePipeline`, build/mod.rs lines 23-52, without fonts, caches and the collision resolver.  `OwnedStyle` (style.rs lines
12-40) holds the texts of a style; of those of `Style` it leaves out the ones of the newer format, which nothing reads here. -/
structure Pipe where
  set : Settings
  styles : Map Str Style
  default : Option Style

/-- `new`, build/mod.rs lines 62-81. -/
def new : Pipe := ⟨⟨(1920, 1080), none, true, 0⟩, [], none⟩

/-- `with_dimensions`, build/mod.rs lines 84-103. -/
def withDimensions (w h : Rat) : Pipe := ⟨⟨(w, h), none, true, 0⟩, [], none⟩

/-- A script information section, run.rs lines 101-126. -/
def readInfo (lower : Str → Str) (fields : List (Str × Str)) (s : Settings) : Settings :=
  { play := match Resolved.resolution fields "PlayResX".toList "PlayResY".toList with
      | some (x, y) => ((x : Rat), (y : Rat))
      | none => s.play
    wrap := InfoOps.parsedWrap fields
    layout := match Resolved.resolution fields "LayoutResX".toList "LayoutResY".toList with
      | some (x, y) => some ((x : Rat), (y : Rat))
      | none => s.layout
    scaled := match Resolved.field fields "ScaledBorderAndShadow".toList with
      | some v => decide (lower v ≠ "no".toList)
      | none => s.scaled }

/-- The factor from layout to play resolution, run.rs lines 129-147.  For a layout resolution of 0 the code's factor is infinite or
not a number; nothing is claimed about that case. -/
def factor (layout : Option Rat) (play : Rat) : Rat :=
  match layout with
  | some l => if l ≠ play then play / l else 1
  | none => 1

/-- A number scaled and written again, e.g. run.rs lines 159-162. -/
def rescale (num : Str → Option Rat) (shw : Rat → Str) (k : Rat) (t : Str) : Str :=
  match num t with
  | some x => shw (x * k)
  | none => t

/-- One style, run.rs lines 154-194. -/
def fit (num : Str → Option Rat) (shw : Rat → Str) (set : Settings) (s : Style) : Style :=
  let x := factor (set.layout.map (·.1)) set.play.1
  let y := factor (set.layout.map (·.2)) set.play.2
  if x ≠ 1 ∨ y ≠ 1 then
    { s with
      fontsize := rescale num shw y s.fontsize
      marginL := rescale num shw x s.marginL
      marginR := rescale num shw x s.marginR
      marginV := rescale num shw y s.marginV
      outline := if set.scaled then rescale num shw y s.outline else s.outline
      shadow := if set.scaled then rescale num shw y s.shadow else s.shadow
      spacing := rescale num shw x s.spacing }
  else s

/-- Adding one style, run.rs lines 196-200. -/
def addStyle (num : Str → Option Rat) (shw : Rat → Str) (p : Pipe) (s : Style) : Pipe :=
  { p with
    default := if s.name = "Default".toList ∨ s.name = "*Default".toList then some (fit num shw p.set s) else p.default
    styles := p.styles.insert s.name (fit num shw p.set s) }

/-- One section, run.rs lines 99-204. -/
def readSection (num : Str → Option Rat) (shw : Rat → Str) (lower : Str → Str) (p : Pipe) : Section → Pipe
  | .info f _ => { p with set := readInfo lower f p.set }
  | .styles l => l.foldl (fun p s => addStyle num shw p s.1) p
  | _ => p

/-- `prepare_script`, run.rs lines 77-212.  `pick` is `values().next()` of the hash map. -/
def prepare (num : Str → Option Rat) (shw : Rat → Str) (lower : Str → Str) (pick : Map Str Style → Option Style) (old : Pipe)
    (sections : List Section) : Pipe :=
  let p := sections.foldl (readSection num shw lower) { old with styles := [], default := none }
  if p.default = none ∧ p.styles ≠ [] then { p with default := pick p.styles } else p

end Verif.Prepare
