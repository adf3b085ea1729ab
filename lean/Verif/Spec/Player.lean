import Verif.Model.Player
import Verif.Spec.Time
/-!
# What a player shows
-/
namespace Verif.Spec.Player
open Verif.Player (Player Shown Cmd)

/-- Whole milliseconds of playing time between two readings of the clock. -/
def ran (v t0 t : Rat) : Nat := ((t - t0) * v).floor.toNat

/-- The two times fall into the same forty milliseconds. -/
def SameSlot (a b : Nat) : Prop := a / 40 = b / 40

/-- Greatest number of a list (0 of none). -/
def Greatest (l : List Nat) (m : Nat) : Prop := (∀ x ∈ l, x ≤ m) ∧ (m ∈ l ∨ l = [] ∧ m = 0)

/-- The ends, in centiseconds, of the events of a parsed script whose end can be read. -/
inductive Ends : List (List Char) → List Nat → Prop
  | nil : Ends [] []
  | some {s v l m} : Verif.Spec.TimeText s v → Ends l m → Ends (s :: l) (v :: m)
  | none {s l m} : (∀ v, ¬ Verif.Spec.TimeText s v) → Ends l m → Ends (s :: l) m

/-- The texts of the ends of the events of all sections. -/
def endTexts (s : Verif.Parser.Script) : List (List Char) :=
  s.sections.flatMap (fun x => match x with | .events l => l.map (fun e => e.1.stop) | _ => [])

/-- A command that begins a stretch of playing: playing itself, or a jump while playing. -/
def Begins {F : Type} (p : Player F) : Cmd → Prop
  | .play => True
  | .seek _ | .forward | .backward => p.playing = true
  | _ => False

/-- A pixel of the frame (four bytes each) is not transparent. -/
def Visible (px : List Nat) : Prop := ∃ i v, px[4 * i + 3]? = Option.some v ∧ 0 < v

end Verif.Spec.Player
