import Verif.Model.Parser
import Verif.Model.Styles
import Verif.Model.Color
import Verif.Model.Time
/-!
# Resolved styles and the style analyzer — `crates/ass-core/analysis/styles/{resolved_style,analyzer,validation}/`

Numbers (`f32` in the code) are exact rationals and `str::parse::<f32>` is the parameter `num`: rounding, infinities and NaN are
not modelled.  The four flags of `TextFormatting` are four fields.  Lists kept in `BTreeMap`s are given in the order of the
styles instead of that of the keys.
-/
namespace Verif.Resolved
open Verif
open Verif.Ast (Style)
open Verif.Parser (Section)
open Verif.Color (Rgba parseBgrColor)

/-- `ResolvedStyle`, resolved_style/mod.rs lines 60-108. -/
structure Look where
  name : Str
  fontName : Str
  fontSize : Rat
  primary : Rgba
  secondary : Rgba
  outlineColor : Rgba
  back : Rgba
  bold : Bool
  italic : Bool
  underline : Bool
  strikeOut : Bool
  scaleX : Rat
  scaleY : Rat
  spacing : Rat
  angle : Rat
  borderStyle : Nat
  outline : Rat
  shadow : Rat
  alignment : Nat
  marginL : Nat
  marginR : Nat
  marginT : Nat
  marginB : Nat
  encoding : Nat
  score : Nat
deriving DecidableEq

/-! ## Reading fields, resolved_style/parsing.rs -/

/-- `parse_font_size`, lines 9-16. -/
def fontSize (num : Str → Option Rat) (t : Str) : Option Rat :=
  match num t with
  | some x => if x ≤ 0 ∨ x > 1000 then none else some x
  | none => none

/-- `parse_color_with_default`, lines 19-25. -/
def color (t : Str) : Option Rgba := if trim t = [] then some ⟨255, 255, 255, 255⟩ else parseBgrColor t

/-- `parse_bool_flag`, lines 28-34. -/
def flag (t : Str) : Option Bool := if t = ['0'] then some false else if t = ['1'] then some true else none

/-- `parse_percentage`, lines 37-44. -/
def percentage (num : Str → Option Rat) (t : Str) : Option Rat :=
  match num t with
  | some x => if 0 ≤ x ∧ x ≤ 1000 then some x else none
  | none => none

/-- `parse_u8`, lines 54-58. -/
def u8 (t : Str) : Option Nat := parseUnsigned 10 256 t

/-- `parse_u16`, lines 61-65. -/
def u16 (t : Str) : Option Nat := parseUnsigned 10 65536 t

/-! ## Complexity, resolved_style/scaling.rs lines 45-89 -/

/-- `f32::abs`. -/
def absR (x : Rat) : Rat := if x < 0 then -x else x

/-- `calculate_complexity`.  The sum is at most 79, so that neither the `u8` nor the final `min(100)` matters. -/
def complexity (r : Look) : Nat :=
  (if r.fontSize > 72 then 20 else if r.fontSize > 48 then 10 else 0) +
  (if r.outline > 4 then 15 else if r.outline > 2 then 8 else 0) +
  (if r.shadow > 3 then 10 else if r.shadow > 1 then 5 else 0) +
  (if absR (r.scaleX - 100) > 1 / 1000 ∨ absR (r.scaleY - 100) > 1 / 1000 then 10 else 0) +
  (if absR r.angle > 1 / 1000 then 15 else 0) +
  (if r.bold = true then 2 else 0) + (if r.italic = true then 2 else 0) +
  (if r.underline = true ∨ r.strikeOut = true then 5 else 0)

/-- The score filled in. -/
def scored (r : Look) : Look := { r with score := min (complexity r) 100 }

/-! ## Resolving -/

/-- The vertical margins, from_style.rs lines 84-91. -/
def vertical (s : Style) : Option (Nat × Nat) :=
  match s.marginT, s.marginB with
  | some t, some b => (u16 t).bind fun t => (u16 b).map fun b => (t, b)
  | _, _ => (u16 s.marginV).map fun v => (v, v)

/-- `from_style`, from_style.rs lines 43-124. -/
def fromStyle (num : Str → Option Rat) (s : Style) : Option Look :=
  (fontSize num s.fontsize).bind fun size =>
  (color s.primary).bind fun primary =>
  (color s.secondary).bind fun secondary =>
  (color s.outlineColour).bind fun outlineColor =>
  (color s.back).bind fun back =>
  (flag s.bold).bind fun bold =>
  (flag s.italic).bind fun italic =>
  (flag s.underline).bind fun underline =>
  (flag s.strikeout).bind fun strikeOut =>
  (percentage num s.scaleX).bind fun scaleX =>
  (percentage num s.scaleY).bind fun scaleY =>
  (num s.spacing).bind fun spacing =>
  (num s.angle).bind fun angle =>
  (u8 s.borderStyle).bind fun borderStyle =>
  (num s.outline).bind fun outline =>
  (num s.shadow).bind fun shadow =>
  (u8 s.alignment).bind fun alignment =>
  (u16 s.marginL).bind fun marginL =>
  (u16 s.marginR).bind fun marginR =>
  (vertical s).bind fun v =>
  (u8 s.encoding).map fun encoding =>
    scored
      { name := s.name, fontName := if s.fontname = [] then "Arial".toList else s.fontname, fontSize := size
        primary := primary, secondary := secondary, outlineColor := outlineColor, back := back
        bold := bold, italic := italic, underline := underline, strikeOut := strikeOut
        scaleX := scaleX, scaleY := scaleY, spacing := spacing, angle := angle, borderStyle := borderStyle
        outline := outline, shadow := shadow, alignment := alignment
        marginL := marginL, marginR := marginR, marginT := v.1, marginB := v.2, encoding := encoding, score := 0 }

/-- One property under a parent: kept if the field is one of the `keep` texts, read otherwise. -/
def over {α : Type} (keep : List Str) (read : Str → Option α) (t : Str) (old : α) : Option α :=
  if t ∈ keep then some old else read t

/-- One flag under a parent, inheritance.rs lines 62-90. -/
def overFlag (t : Str) (old : Bool) : Bool := if t = ['0'] then false else if t = ['1'] then true else old

/-- The vertical margins under a parent, inheritance.rs lines 134-145. -/
def overVertical (s : Style) (p : Look) : Option (Nat × Nat) :=
  match s.marginT, s.marginB with
  | some t, some b => (over [[]] u16 t p.marginT).bind fun t => (over [[]] u16 b p.marginB).map fun b => (t, b)
  | _, _ => if s.marginV = [] ∨ s.marginV = ['0'] then some (p.marginT, p.marginB) else (u16 s.marginV).map fun v => (v, v)

/-- `from_style_with_parent`, inheritance.rs lines 29-156. -/
def fromStyleWithParent (num : Str → Option Rat) (s : Style) (p : Look) : Option Look :=
  (over [[], ['0']] (fontSize num) s.fontsize p.fontSize).bind fun size =>
  (over [[]] color s.primary p.primary).bind fun primary =>
  (over [[]] color s.secondary p.secondary).bind fun secondary =>
  (over [[]] color s.outlineColour p.outlineColor).bind fun outlineColor =>
  (over [[]] color s.back p.back).bind fun back =>
  (over [[], "100".toList] (percentage num) s.scaleX p.scaleX).bind fun scaleX =>
  (over [[], "100".toList] (percentage num) s.scaleY p.scaleY).bind fun scaleY =>
  (over [[], ['0']] num s.spacing p.spacing).bind fun spacing =>
  (over [[], ['0']] num s.angle p.angle).bind fun angle =>
  (over [[]] u8 s.borderStyle p.borderStyle).bind fun borderStyle =>
  (over [[], ['0']] num s.outline p.outline).bind fun outline =>
  (over [[], ['0']] num s.shadow p.shadow).bind fun shadow =>
  (over [[]] u8 s.alignment p.alignment).bind fun alignment =>
  (over [[]] u16 s.marginL p.marginL).bind fun marginL =>
  (over [[]] u16 s.marginR p.marginR).bind fun marginR =>
  (overVertical s p).bind fun v =>
  (over [[]] u8 s.encoding p.encoding).map fun encoding =>
    scored
      { name := s.name, fontName := if s.fontname = [] then p.fontName else s.fontname, fontSize := size
        primary := primary, secondary := secondary, outlineColor := outlineColor, back := back
        bold := overFlag s.bold p.bold, italic := overFlag s.italic p.italic
        underline := overFlag s.underline p.underline, strikeOut := overFlag s.strikeout p.strikeOut
        scaleX := scaleX, scaleY := scaleY, spacing := spacing, angle := angle, borderStyle := borderStyle
        outline := outline, shadow := shadow, alignment := alignment
        marginL := marginL, marginR := marginR, marginT := v.1, marginB := v.2, encoding := encoding, score := 0 }

/-! ## Scaling, resolved_style/scaling.rs lines 19-42 -/

/-- `(f32::from(m) * k) as u16`: cut off below zero, rounded down and at most 65535. -/
def scaleMargin (k : Rat) (m : Nat) : Nat := min ((m : Rat) * k).floor.toNat 65535

/-- `apply_resolution_scaling`. -/
def scaleBy (x y : Rat) (r : Look) : Look :=
  scored { r with
    fontSize := r.fontSize * ((x + y) / 2)
    spacing := r.spacing * x
    outline := r.outline * ((x + y) / 2)
    shadow := r.shadow * ((x + y) / 2)
    marginL := scaleMargin x r.marginL
    marginR := scaleMargin x r.marginR
    marginT := scaleMargin y r.marginT
    marginB := scaleMargin y r.marginB }

/-- `get_field`, ast/script_info/info.rs lines 66-68. -/
def field (fields : List (Str × Str)) (key : Str) : Option Str := (fields.find? (fun f => f.1 = key)).map (·.2)

/-- `play_resolution` and `layout_resolution`, info.rs lines 98-119. -/
def resolution (fields : List (Str × Str)) (kx ky : Str) : Option (Nat × Nat) :=
  ((field fields kx).bind parseU32).bind fun x => ((field fields ky).bind parseU32).map fun y => (x, y)

/-- The fields of the first script information section; the loop of analysis.rs lines 16-37 stops at it. -/
def firstInfo : List Section → List (Str × Str)
  | [] => []
  | .info f _ :: _ => f
  | _ :: r => firstInfo r

/-- `calculate_resolution_scaling`, analyzer/analysis.rs lines 14-38.  With a layout resolution of 0 the factors of the code are
infinite or not a number; those of the model are then 0, and nothing is claimed about that case. -/
def scaling (sections : List Section) : Option (Rat × Rat) :=
  match resolution (firstInfo sections) "LayoutResX".toList "LayoutResY".toList,
      resolution (firstInfo sections) "PlayResX".toList "PlayResY".toList with
  | some (lx, ly), some (px, py) =>
    if lx ≠ px ∨ ly ≠ py then some ((px : Rat) / (lx : Rat), (py : Rat) / (ly : Rat)) else none
  | _, _ => none

/-- The scaling applied, analysis.rs lines 52-54 and 84-86. -/
def applyScaling (k : Option (Rat × Rat)) (r : Look) : Look :=
  match k with
  | some (x, y) => scaleBy x y r
  | none => r

/-! ## The analyzer -/

/-- `extract_styles`, checks.rs lines 20-27, and the loop of analysis.rs lines 42-65. -/
def firstStyles : List Section → Option (List Style)
  | [] => none
  | .styles l :: _ => some (l.map (·.1))
  | _ :: r => firstStyles r

/-- A style as the dependency order sees it. -/
def node (s : Style) : Styles.Style Style := ⟨s.name, s.parent, s⟩

/-- `StyleAnalyzer::new`, the map of resolved styles: accessors.rs lines 26-39 and analysis.rs lines 41-66. -/
def resolved (num : Str → Option Rat) (sections : List Section) : Option (Map Str Look) :=
  match firstStyles sections with
  | none => some []
  | some styles =>
    Styles.analyze (fun s => fromStyle num s.body) (fun s p => fromStyleWithParent num s.body p)
      (applyScaling (scaling sections)) (styles.map node)

/-- `StyleConflict`s the analyzer reports. -/
inductive Conflict where
  | missingParent (style parent : Str)
  | circular (styles : List Str)
  | duplicate (styles : List Str)
deriving DecidableEq, Repr

/-- Missing parents, dependency.rs lines 34-57. -/
def missing (styles : List Style) : List Conflict :=
  styles.filterMap fun s => match s.parent with
    | some p => if styles.any (fun q => q.name = p) then none else some (.missingParent s.name p)
    | none => none

/-- Circular inheritance, dependency.rs lines 66-71. -/
def circular (styles : List Style) : List Conflict :=
  let l := styles.map node
  match Styles.hasCycle (Styles.parents l) ((Styles.keys l).length + 1) (Styles.keys l) ([], []) with
  | some true => [.circular (Styles.keys l)]
  | _ => []

/-- `detect_style_conflicts_from_section`, checks.rs lines 30-43. -/
def duplicates (styles : List Style) : List Conflict :=
  (Styles.keys (styles.map node)).filterMap fun n =>
    let instances := (styles.filter (fun s => s.name = n)).map (·.name)
    if instances.length > 1 then some (.duplicate instances) else none

/-- `conflicts()` with `AnalysisOptions::CONFLICTS` set or not. -/
def conflicts (check : Bool) (sections : List Section) : List Conflict :=
  match firstStyles sections with
  | none => []
  | some styles => missing styles ++ circular styles ++ (if check then duplicates styles else [])

/-- `StyleInheritance`, validation/inheritance.rs lines 9-21. -/
structure Info where
  parents : List Str
  children : List Str
  depth : Nat
deriving DecidableEq, Repr

/-- One turn of dependency.rs lines 34-63 with `AnalysisOptions::INHERITANCE` set. -/
def infoStep (styles : List Style) (m : Map Str Info) (s : Style) : Map Str Info :=
  match s.parent with
  | some p =>
    if styles.any (fun q => q.name = p) then
      match m.get s.name with
      | some i => m.insert s.name { i with parents := [p], depth := 1 }
      | none => m.insert s.name ⟨[p], [], 1⟩
    else m
  | none => m.insert s.name ⟨[], [], 0⟩

/-- `inheritance_info()`. -/
def info (sections : List Section) : Map Str Info :=
  match firstStyles sections with
  | none => []
  | some styles => styles.foldl (infoStep styles) []

/-! ## Validation, accessors.rs lines 67-81 and checks.rs lines 46-98 -/

/-- `StyleValidationIssue`s the analyzer reports. -/
inductive Issue where
  | notPositive | veryLarge | large | complex
deriving DecidableEq, Repr

/-- The options and the threshold validation looks at. -/
structure Config where
  validation : Bool
  strict : Bool
  performance : Bool
  largeFont : Rat

/-- `validate_style_properties` and `analyze_style_performance` for one style. -/
def check (c : Config) (r : Look) : List Issue :=
  (if c.validation then
    (if r.fontSize ≤ 0 then [.notPositive] else []) ++ (if c.strict = true ∧ r.fontSize > 200 then [.veryLarge] else [])
   else []) ++
  (if c.performance then
    (if r.fontSize > c.largeFont then [.large] else []) ++ (if r.score > 70 then [.complex] else [])
   else [])

/-- `validate_styles`, with the style each issue is about. -/
def validate (c : Config) (m : Map Str Look) : List (Str × Issue) := m.flatMap fun p => (check c p.2).map fun i => (p.1, i)

end Verif.Resolved
