import Verif.Model.Frames
/-!
# Specification: frames as values, and blending
-/
namespace Verif.Spec.Frames
open Verif.Frames (Format Picture Op Px)

/-- The colour of the `k`-th whole pixel of a buffer, by the order of channels of its format. -/
def pixel (f : Format) (bytes : List Nat) (k : Nat) : Option Px :=
  match f with
  | .rgba => match bytes.drop (4 * k) with
    | r :: g :: b :: a :: _ => some ⟨r, g, b, a⟩
    | _ => none
  | .bgra => match bytes.drop (4 * k) with
    | b :: g :: r :: a :: _ => some ⟨r, g, b, a⟩
    | _ => none
  | .rgb => match bytes.drop (3 * k) with
    | r :: g :: b :: _ => some ⟨r, g, b, 255⟩
    | _ => none

/-- The same picture, with its channels in the order red, green, blue, alpha. -/
def Converted (p q : Picture) : Prop :=
  q.format = .rgba ∧ q.width = p.width ∧ q.height = p.height ∧ q.time = p.time ∧
    ∀ k, pixel q.format q.bytes k = pixel p.format p.bytes k

/-- What an action does, if every frame were a value of its own: at most one frame changes. -/
def Step (before : List (Option Picture)) : Op → List (Option Picture) → Prop
  | .new bytes width height time format, after => after = before ++ [some ⟨bytes, width, height, time, format⟩]
  | .empty width height time, after =>
    after = before ++ [some ⟨List.replicate (width * height * 4) 0, width, height, time, .rgba⟩]
  | .copy i, after => ∃ p, before[i]? = some (some p) ∧ after = before ++ [some p]
  | .retime i t, after => ∃ p, before[i]? = some (some p) ∧ after = before ++ [some { p with time := t }]
  | .write i k b, after =>
    ∃ p, before[i]? = some (some p) ∧ k < p.bytes.length ∧ after = before.set i (some { p with bytes := p.bytes.set k b })
  | .toRgba i, after => ∃ p q, before[i]? = some (some p) ∧ Converted p q ∧ after = before.set i (some q)
  | .drop i, after => ∃ p, before[i]? = some (some p) ∧ after = before.set i none

/-- A history of such actions. -/
def History : List (Option Picture) → List Op → List (Option Picture) → Prop
  | before, [], after => after = before
  | before, o :: r, after => ∃ mid, Step before o mid ∧ History mid r after

end Verif.Spec.Frames
