import Verif.Model.Resolved
import Verif.Spec.Time
import Verif.Spec.SrtDoc
/-!
# Specification: what a style line says and what the analyzer makes of it
-/
namespace Verif.Spec.Resolved
open Verif
open Verif.Ast (Style)
open Verif.Parser (Section)
open Verif.Resolved (Look Conflict)
open Verif.Color (Rgba)
open Verif.Spec.SrtDoc (White)

/-- A whole number below the bound, with or without a plus sign. -/
def Whole (bound : Nat) (t : Str) (v : Nat) : Prop := v < bound ∧ (Numeral t v ∨ ∃ ds, t = '+' :: ds ∧ Numeral ds v)

/-- The flag is written `0` or `1`. -/
def Flag (t : Str) (b : Bool) : Prop := (t = "0".toList ∧ b = false) ∨ (t = "1".toList ∧ b = true)

/-- The ranges of sizes and percentages. -/
def Size (num : Str → Option Rat) (t : Str) (x : Rat) : Prop := num t = some x ∧ 0 < x ∧ x ≤ 1000
def Percent (num : Str → Option Rat) (t : Str) (x : Rat) : Prop := num t = some x ∧ 0 ≤ x ∧ x ≤ 1000

/-- A colour: white with alpha 255 if the field is blank, what the reader of colours finds otherwise. -/
def Colour (read : Str → Option Rgba) (t : Str) (c : Rgba) : Prop :=
  ((∀ x ∈ t, White x) ∧ c = ⟨255, 255, 255, 255⟩) ∨ ((∃ x ∈ t, ¬ White x) ∧ read t = some c)

/-- The vertical margins: `MarginT` and `MarginB` if both are there, else `MarginV` for both. -/
def Vertical (s : Style) (t b : Nat) : Prop :=
  (∃ x y, s.marginT = some x ∧ s.marginB = some y ∧ Whole 65536 x t ∧ Whole 65536 y b) ∨
  ((s.marginT = none ∨ s.marginB = none) ∧ Whole 65536 s.marginV t ∧ b = t)

/-- A resolved style holds just what the style says. -/
structure Says (num : Str → Option Rat) (read : Str → Option Rgba) (s : Style) (r : Look) : Prop where
  name : r.name = s.name
  fontName : (s.fontname = [] ∧ r.fontName = "Arial".toList) ∨ (s.fontname ≠ [] ∧ r.fontName = s.fontname)
  fontSize : Size num s.fontsize r.fontSize
  primary : Colour read s.primary r.primary
  secondary : Colour read s.secondary r.secondary
  outlineColor : Colour read s.outlineColour r.outlineColor
  back : Colour read s.back r.back
  bold : Flag s.bold r.bold
  italic : Flag s.italic r.italic
  underline : Flag s.underline r.underline
  strikeOut : Flag s.strikeout r.strikeOut
  scaleX : Percent num s.scaleX r.scaleX
  scaleY : Percent num s.scaleY r.scaleY
  spacing : num s.spacing = some r.spacing
  angle : num s.angle = some r.angle
  borderStyle : Whole 256 s.borderStyle r.borderStyle
  outline : num s.outline = some r.outline
  shadow : num s.shadow = some r.shadow
  alignment : Whole 256 s.alignment r.alignment
  marginL : Whole 65536 s.marginL r.marginL
  marginR : Whole 65536 s.marginR r.marginR
  vertical : Vertical s r.marginT r.marginB
  encoding : Whole 256 s.encoding r.encoding

/-- A property under a parent: the parent's if the field is empty, else what the field says. -/
def Takes {α : Type} (Reads : Str → α → Prop) (t : Str) (old new : α) : Prop :=
  (t = [] ∧ new = old) ∨ (t ≠ [] ∧ Reads t new)

/-- The vertical margins under a parent. -/
def TakesVertical (s : Style) (p r : Look) : Prop :=
  (∃ x y, s.marginT = some x ∧ s.marginB = some y ∧
    Takes (Whole 65536) x p.marginT r.marginT ∧ Takes (Whole 65536) y p.marginB r.marginB) ∨
  ((s.marginT = none ∨ s.marginB = none) ∧
    Takes (fun t (v : Nat × Nat) => Whole 65536 t v.1 ∧ v.2 = v.1) s.marginV (p.marginT, p.marginB) (r.marginT, r.marginB))

/-- Inheritance, as documented: what the style leaves empty is the parent's, the rest is what the style says. -/
structure Inherits (num : Str → Option Rat) (read : Str → Option Rgba) (s : Style) (p r : Look) : Prop where
  name : r.name = s.name
  fontName : Takes (fun t n => n = t) s.fontname p.fontName r.fontName
  fontSize : Takes (Size num) s.fontsize p.fontSize r.fontSize
  primary : Takes (Colour read) s.primary p.primary r.primary
  secondary : Takes (Colour read) s.secondary p.secondary r.secondary
  outlineColor : Takes (Colour read) s.outlineColour p.outlineColor r.outlineColor
  back : Takes (Colour read) s.back p.back r.back
  bold : Takes Flag s.bold p.bold r.bold
  italic : Takes Flag s.italic p.italic r.italic
  underline : Takes Flag s.underline p.underline r.underline
  strikeOut : Takes Flag s.strikeout p.strikeOut r.strikeOut
  scaleX : Takes (Percent num) s.scaleX p.scaleX r.scaleX
  scaleY : Takes (Percent num) s.scaleY p.scaleY r.scaleY
  spacing : Takes (fun t x => num t = some x) s.spacing p.spacing r.spacing
  angle : Takes (fun t x => num t = some x) s.angle p.angle r.angle
  borderStyle : Takes (Whole 256) s.borderStyle p.borderStyle r.borderStyle
  outline : Takes (fun t x => num t = some x) s.outline p.outline r.outline
  shadow : Takes (fun t x => num t = some x) s.shadow p.shadow r.shadow
  alignment : Takes (Whole 256) s.alignment p.alignment r.alignment
  marginL : Takes (Whole 65536) s.marginL p.marginL r.marginL
  marginR : Takes (Whole 65536) s.marginR p.marginR r.marginR
  vertical : TakesVertical s p r
  encoding : Takes (Whole 256) s.encoding p.encoding r.encoding

/-- The fields that are not understood under a parent: sizes, spacing, angle, outline, shadow and vertical margin written `0`,
scales written `100`, and flags that are neither empty nor `0` nor `1`. -/
structure Overrides (s : Style) : Prop where
  fontsize : s.fontsize ≠ "0".toList
  scaleX : s.scaleX ≠ "100".toList
  scaleY : s.scaleY ≠ "100".toList
  spacing : s.spacing ≠ "0".toList
  angle : s.angle ≠ "0".toList
  outline : s.outline ≠ "0".toList
  shadow : s.shadow ≠ "0".toList
  vertical : (∃ x y, s.marginT = some x ∧ s.marginB = some y) ∨ s.marginV ≠ "0".toList
  bold : s.bold ∈ [[], "0".toList, "1".toList]
  italic : s.italic ∈ [[], "0".toList, "1".toList]
  underline : s.underline ∈ [[], "0".toList, "1".toList]
  strikeOut : s.strikeout ∈ [[], "0".toList, "1".toList]

/-- A scaled margin: the largest whole number that is not above, as far as 16 bits go. -/
def MarginScaled (k : Rat) (m n : Nat) : Prop :=
  (n : Rat) ≤ (m : Rat) * k ∧ n ≤ 65535 ∧ (n < 65535 → (m : Rat) * k < (n : Rat) + 1)

/-- `r'` is `r` for a screen `x` times as wide and `y` times as high. -/
structure Scaled (x y : Rat) (r r' : Look) : Prop where
  fontSize : 2 * r'.fontSize = r.fontSize * x + r.fontSize * y
  outline : 2 * r'.outline = r.outline * x + r.outline * y
  shadow : 2 * r'.shadow = r.shadow * x + r.shadow * y
  spacing : r'.spacing = r.spacing * x
  marginL : MarginScaled x r.marginL r'.marginL
  marginR : MarginScaled x r.marginR r'.marginR
  marginT : MarginScaled y r.marginT r'.marginT
  marginB : MarginScaled y r.marginB r'.marginB
  same : r' = { r with
    fontSize := r'.fontSize, outline := r'.outline, shadow := r'.shadow, spacing := r'.spacing
    marginL := r'.marginL, marginR := r'.marginR, marginT := r'.marginT, marginB := r'.marginB, score := r'.score }

/-- The first entry with a key. -/
def FirstField (fields : List (Str × Str)) (key v : Str) : Prop :=
  ∃ a b, fields = a ++ (key, v) :: b ∧ ∀ f ∈ a, f.1 ≠ key

/-- A resolution given by two fields. -/
def Resolution (fields : List (Str × Str)) (kx ky : Str) (x y : Nat) : Prop :=
  ∃ tx ty, FirstField fields kx tx ∧ FirstField fields ky ty ∧ U32Text tx x ∧ U32Text ty y

/-- `r'` is `r` scaled from the layout resolution to the play resolution, or `r` itself if one of them is not given. -/
def Fits (fields : List (Str × Str)) (r r' : Look) : Prop :=
  (∀ lx ly px py, Resolution fields "LayoutResX".toList "LayoutResY".toList lx ly →
    Resolution fields "PlayResX".toList "PlayResY".toList px py → 0 < lx → 0 < ly →
    Scaled ((px : Rat) / (lx : Rat)) ((py : Rat) / (ly : Rat)) r r') ∧
  ((¬ ∃ x y, Resolution fields "LayoutResX".toList "LayoutResY".toList x y) ∨
    (¬ ∃ x y, Resolution fields "PlayResX".toList "PlayResY".toList x y) → r' = r)

/-- The fields are those of the script's first section of script information (none if there is none). -/
def InfoFields (sections : List Section) (fields : List (Str × Str)) : Prop :=
  (∃ a span b, sections = a ++ .info fields span :: b ∧ ∀ x ∈ a, ∀ f sp, x ≠ .info f sp) ∨
  (fields = [] ∧ ∀ x ∈ sections, ∀ f sp, x ≠ .info f sp)

/-- The styles are those of the script's first section of styles. -/
def StyleList (sections : List Section) (styles : List Style) : Prop :=
  ∃ a l b, sections = a ++ .styles l :: b ∧ (∀ x ∈ a, ∀ m, x ≠ .styles m) ∧ styles = l.map (·.1)

/-- The style is the last one of its name that can be resolved. -/
def LastReadable (num : Str → Option Rat) (read : Str → Option Rgba) (styles : List Style) (n : Str) (s : Style) : Prop :=
  ∃ a b, styles = a ++ s :: b ∧ s.name = n ∧ (∃ r, Says num read s r) ∧ ∀ t ∈ b, t.name = n → ¬ ∃ r, Says num read t r

/-- Points for a value: the second number above the first, the fourth above the third. -/
def points (x : Rat) (hi : Rat) (a : Nat) (lo : Rat) (b : Nat) : Nat := if hi < x then a else if lo < x then b else 0

/-- Within a thousandth. -/
def Near (x y : Rat) : Prop := x - y ≤ 1 / 1000 ∧ y - x ≤ 1 / 1000

instance (x y : Rat) : Decidable (Near x y) := inferInstanceAs (Decidable (_ ∧ _))

/-- The score of a style: what makes it slow to draw, added up. -/
def Scored (r : Look) : Prop :=
  r.score = points r.fontSize 72 20 48 10 + points r.outline 4 15 2 8 + points r.shadow 3 10 1 5 +
    (if Near r.scaleX 100 ∧ Near r.scaleY 100 then 0 else 10) + (if Near r.angle 0 then 0 else 15) +
    r.bold.toNat * 2 + r.italic.toNat * 2 + (r.underline || r.strikeOut).toNat * 5

end Verif.Spec.Resolved
