import Verif.Model.Prepare
import Verif.Spec.Resolved
/-!
# Specification: what the renderer takes from a script
-/
namespace Verif.Spec.Prepare
open Verif
open Verif.Ast (Style)
open Verif.Parser (Section)
open Verif.Prepare (Settings)
open Verif.Spec.Resolved (Resolution FirstField Whole)

/-- What a section says about the play resolution. -/
def GivesPlay (s : Section) (v : Rat × Rat) : Prop :=
  ∃ f sp x y, s = .info f sp ∧ Resolution f "PlayResX".toList "PlayResY".toList x y ∧ v = ((x : Rat), (y : Rat))

/-- What it says about the layout resolution. -/
def GivesLayout (s : Section) (v : Option (Rat × Rat)) : Prop :=
  ∃ f sp x y, s = .info f sp ∧ Resolution f "LayoutResX".toList "LayoutResY".toList x y ∧ v = some ((x : Rat), (y : Rat))

/-- What it says about borders and shadows: scaled unless the field is `no`. -/
def GivesScaled (s : Section) (b : Bool) : Prop :=
  ∃ f sp t, s = .info f sp ∧ FirstField f "ScaledBorderAndShadow".toList t ∧
    (b = false ↔ t ∈ ["no".toList, "No".toList, "nO".toList, "NO".toList])

/-- What it says about wrapping: zero if nothing readable is written. -/
def GivesWrap (s : Section) (n : Nat) : Prop :=
  ∃ f sp, s = .info f sp ∧
    ((∃ t, FirstField f "WrapStyle".toList t ∧ Whole 256 t n) ∨
     ((∀ t m, FirstField f "WrapStyle".toList t → ¬ Whole 256 t m) ∧ n = 0))

/-- The value of the last section that gives one, and the old value if there is none. -/
def Latest {α : Type} (Gives : Section → α → Prop) (old : α) (l : List Section) (v : α) : Prop :=
  (∃ a s b, l = a ++ s :: b ∧ Gives s v ∧ ∀ t ∈ b, ∀ w, ¬ Gives t w) ∨ ((∀ t ∈ l, ∀ w, ¬ Gives t w) ∧ v = old)

/-- The settings in force after the sections. -/
structure InForce (old : Settings) (l : List Section) (v : Settings) : Prop where
  play : Latest GivesPlay old.play l v.play
  layout : Latest GivesLayout old.layout l v.layout
  scaled : Latest GivesScaled old.scaled l v.scaled
  wrap : Latest GivesWrap old.wrap l v.wrap

/-- `s` is the last style of the script whose name is one of `P`; `before` are the sections before its own. -/
def LastStyle (P : Str → Prop) (sections before : List Section) (s : Style) : Prop :=
  ∃ l after a sp b, sections = before ++ .styles l :: after ∧ l = a ++ (s, sp) :: b ∧ P s.name ∧
    (∀ q ∈ b, ¬ P q.1.name) ∧ ∀ m, Section.styles m ∈ after → ∀ q ∈ m, ¬ P q.1.name

/-- `kx` and `ky` lead from the layout to the play resolution; they are 1 without a layout resolution. -/
def Factors (set : Settings) (kx ky : Rat) : Prop :=
  (set.layout = none ∧ kx = 1 ∧ ky = 1) ∨
  ∃ lx ly, set.layout = some (lx, ly) ∧ lx ≠ 0 ∧ ly ≠ 0 ∧ kx * lx = set.play.1 ∧ ky * ly = set.play.2

/-- A text that holds a number holds that number times `k`; others are unchanged. -/
def Times (num : Str → Option Rat) (shw : Rat → Str) (k : Rat) (t t' : Str) : Prop :=
  (∃ x, num t = some x ∧ t' = shw (x * k)) ∨ (num t = none ∧ t' = t)

/-- `s'` is the style `s` brought from the layout to the play resolution; nothing at all changes if the resolutions agree. -/
def Fitted (num : Str → Option Rat) (shw : Rat → Str) (set : Settings) (s s' : Style) : Prop :=
  ∃ kx ky, Factors set kx ky ∧
    ((kx = 1 ∧ ky = 1 ∧ s' = s) ∨
     (¬ (kx = 1 ∧ ky = 1) ∧ ∃ size l r v o d sp,
        Times num shw ky s.fontsize size ∧ Times num shw kx s.marginL l ∧ Times num shw kx s.marginR r ∧
        Times num shw ky s.marginV v ∧ Times num shw kx s.spacing sp ∧
        (if set.scaled = true then Times num shw ky s.outline o ∧ Times num shw ky s.shadow d else o = s.outline ∧ d = s.shadow) ∧
        s' = { s with fontsize := size, marginL := l, marginR := r, marginV := v, outline := o, shadow := d, spacing := sp }))

/-- No layout resolution is zero. -/
def Sound (old : Settings) (sections : List Section) : Prop :=
  (∀ v, old.layout = some v → v.1 ≠ 0 ∧ v.2 ≠ 0) ∧ ∀ s ∈ sections, ∀ v, GivesLayout s (some v) → v.1 ≠ 0 ∧ v.2 ≠ 0

/-- The names of the default style. -/
def IsDefault (n : Str) : Prop := n = "Default".toList ∨ n = "*Default".toList

/-- What a hash map may answer when asked for a first value: any of its values. -/
def Picks (pick : Map Str Style → Option Style) : Prop := ∀ m, m ≠ [] → ∃ k v, (k, v) ∈ m ∧ pick m = some v

/-- What is asked of lower case. -/
def Lowers (lower : Str → Str) : Prop :=
  ∀ t, lower t = "no".toList ↔ t ∈ ["no".toList, "No".toList, "nO".toList, "NO".toList]

end Verif.Spec.Prepare
