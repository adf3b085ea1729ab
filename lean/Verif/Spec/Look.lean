import Verif.Spec.Segment
import Verif.Spec.Color
import Verif.Model.Look
/-!
# Specification: the look of a run of text
-/
namespace Verif.Spec.Look
open Verif
open Verif.Color (Rgba)
open Verif.Segment (Tags Field Val Seg KaraokeStyle)
open Verif.Look (Style Effect)
open Verif.Spec.Segment (valueOf)

/-! ## Colours -/

/-- Red, green and blue are those of the tag, or else those of the style; what is opaque of it is the tag's or the style's, times `k`,
without the fraction. -/
def Painted (own alpha : Option Val) (style : Rgba) (k : Rat) (out : Rgba) : Prop :=
  ((∃ c, own = some (.color c) ∧ out.r = c.r ∧ out.g = c.g ∧ out.b = c.b) ∨
    ((∀ c, own ≠ some (.color c)) ∧ out.r = style.r ∧ out.g = style.g ∧ out.b = style.b)) ∧
  ∃ a : Nat, (alpha = some (.byte a) ∨ ((∀ n, alpha ≠ some (.byte n)) ∧ a = style.a)) ∧ (out.a : Rat) ≤ (a : Rat) * k ∧ (a : Rat) * k < (out.a : Rat) + 1

/-- The share `k` that `\fad` shows: it rises for `tin` from the beginning, falls for `tout` to the end, and is 1 between. -/
inductive Short (tin tout start stop now : Nat) (k : Rat) : Prop where
  | rise : now < start + tin → k * (tin : Rat) = (now : Rat) - (start : Rat) → Short tin tout start stop now k
  | full : start + tin ≤ now → now + tout < stop → k = 1 → Short tin tout start stop now k
  | fall : start + tin ≤ now → stop ≤ now + tout → k * (tout : Rat) = (stop : Rat) - (now : Rat) → Short tin tout start stop now k

/-- The transparency `a` of `\fade`: `a1` until `t1`, moving to `a2` until `t2`, `a2` until `t3`, moving to `a3` until `t4`, then `a3`. -/
inductive Long (a1 a2 a3 t1 t2 t3 t4 now : Nat) (a : Rat) : Prop where
  | before : now < t1 → a = (a1 : Rat) → Long a1 a2 a3 t1 t2 t3 t4 now a
  | toMiddle : t1 ≤ now → now < t2 → (a - (a1 : Rat)) * ((t2 : Rat) - (t1 : Rat)) = ((a2 : Rat) - (a1 : Rat)) * ((now : Rat) - (t1 : Rat)) →
      Long a1 a2 a3 t1 t2 t3 t4 now a
  | middle : t1 ≤ now → t2 ≤ now → now < t3 → a = (a2 : Rat) → Long a1 a2 a3 t1 t2 t3 t4 now a
  | toEnd : t1 ≤ now → t2 ≤ now → t3 ≤ now → now < t4 →
      (a - (a2 : Rat)) * ((t4 : Rat) - (t3 : Rat)) = ((a3 : Rat) - (a2 : Rat)) * ((now : Rat) - (t3 : Rat)) → Long a1 a2 a3 t1 t2 t3 t4 now a
  | after : t1 ≤ now → t2 ≤ now → t3 ≤ now → t4 ≤ now → a = (a3 : Rat) → Long a1 a2 a3 t1 t2 t3 t4 now a

/-- The transparencies that tags have set are bytes. -/
def Bytes (t : Tags) : Prop := ∀ f n, valueOf t f = some (.byte n) → n ≤ 255

/-! ## Effects -/

/-- A field of a style that switches something on. -/
def On (s : List Char) : Prop := s = "-1".toList ∨ s = "1".toList

/-- What a style must be like for the theorems: its switches are `-1` or `0`, its border style is 1 or 3. -/
def Usual (s : Style) : Prop :=
  (∀ f ∈ [s.bold, s.italic, s.underline, s.strikeout], f = "-1".toList ∨ f = "0".toList) ∧
  (s.borderStyle = "1".toList ∨ s.borderStyle = "3".toList)

/-- What a switch says: the tag, or else the style. -/
def Switched (own : Option Val) (style : List Char) : Prop := own = some (.flag true) ∨ ((∀ b, own ≠ some (.flag b)) ∧ On style)

/-- A number: the first of the tags that is set, or else the style's. -/
def FirstOf (tags : List (Option Val)) (style : Rat) (n : Rat) : Prop :=
  (∃ before after, tags = before ++ some (.number n) :: after ∧ ∀ x ∈ before, ∀ v, x ≠ some (.number v)) ∨
  ((∀ x ∈ tags, ∀ v, x ≠ some (.number v)) ∧ n = style)

/-- The kind of an effect. -/
def kind : Effect → Nat
  | .bold => 0 | .italic => 1 | .underline => 2 | .strikethrough => 3 | .opaqueBox .. => 4 | .outline .. => 5 | .shadow .. => 6
  | .blur .. => 7 | .edgeBlur .. => 8 | .rotation .. => 9 | .shear .. => 10 | .scale .. => 11 | .clip .. => 12

/-! ## Lines and karaoke -/

/-- The characters of segments, each with its tags. -/
def flat (gs : List Seg) : List (Char × Tags) := gs.flatMap fun g => g.text.map fun c => (c, g.tags)

/-- What stands between line breaks. -/
def cut : List (Char × Tags) → List (List (Char × Tags))
  | [] => [[]]
  | x :: xs =>
    if x.1 = '\n' then [] :: cut xs
    else match cut xs with
      | l :: ls => (x :: l) :: ls
      | [] => [[x]]

/-- The part `k` that is sung of a syllable that begins at `a` and lasts for `d`. -/
inductive Sung (a d now : Nat) (k : Rat) : Prop where
  | before : now < a → k = 0 → Sung a d now k
  | within : a ≤ now → now < a + d → k * (d : Rat) = (now : Rat) - (a : Rat) → Sung a d now k
  | after : a + d ≤ now → k = 1 → Sung a d now k

/-- How long a run is sung. -/
def duration (t : Tags) : Nat :=
  match valueOf t .karaoke with
  | some (.karaoke d _) => d
  | _ => 0

/-- What the progress of a run must be if its syllable begins at `a`. -/
def Entry (a now : Nat) (t : Tags) (e : Option Rat) : Prop :=
  match valueOf t .karaoke with
  | some (.karaoke d _) => ∃ k, e = some k ∧ Sung a d now k
  | _ => e = none

end Verif.Spec.Look
