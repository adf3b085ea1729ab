import Verif.Model.Alignment
import Verif.Spec.Alignment
/-!
# C46: alignment values
-/
namespace Verif.Props.Alignment
open Verif Verif.Alignment
open Verif.Spec.Alignment

/-- **C46.**  A value of the keypad is that place, anything else is the bottom centre. -/
theorem C46_keypad (v : Nat) : (∀ r c, v = keypad r c → fromValue v = keypad r c) ∧
    ((∀ r c, v ≠ keypad r c) → fromValue v = keypad .bottom .centre) := by
  constructor
  · intro r c h
    subst h
    cases r <;> cases c <;> rfl
  · intro h
    unfold fromValue
    split
    · exact absurd rfl (h .bottom .left)
    · rfl
    · exact absurd rfl (h .bottom .right)
    · exact absurd rfl (h .middle .left)
    · exact absurd rfl (h .middle .centre)
    · exact absurd rfl (h .middle .right)
    · exact absurd rfl (h .top .left)
    · exact absurd rfl (h .top .centre)
    · exact absurd rfl (h .top .right)
    · rfl

set_option maxRecDepth 20000 in
/-- **C46.**  Both conversions of a value of SSA agree, for all bytes that say left, centred or right and do not say both top and
middle; both find the column and the bottom row of SSA.  The list of bytes is complete.  `_partial`: the other rows are
exchanged (`C46_rows_violated`), and on other bytes the conversions disagree (`C46_agree_violated`). -/
theorem C46_ssa_partial :
    (∀ v < 256, v % 4 ≠ 0 → v / 4 % 4 ≠ 3 → fromSsaLegacy v = convertSsa v) ∧
    ∀ c, fromSsaLegacy (ssa .bottom c) = keypad .bottom c ∧ convertSsa (ssa .bottom c) = keypad .bottom c ∧
      ∀ r, ∃ r', fromSsaLegacy (ssa r c) = keypad r' c ∧ convertSsa (ssa r c) = keypad r' c := by
  constructor
  · decide
  · intro c
    refine ⟨by cases c <;> rfl, by cases c <;> rfl, ?_⟩
    intro r
    cases r with
    | bottom => exact ⟨.bottom, by cases c <;> exact ⟨rfl, rfl⟩⟩
    | middle => exact ⟨.top, by cases c <;> exact ⟨rfl, rfl⟩⟩
    | top => exact ⟨.middle, by cases c <;> exact ⟨rfl, rfl⟩⟩

/-- **C46 is violated**: both conversions put the top of SSA into the middle and the middle of SSA to the top. -/
theorem C46_rows_violated (c : Column) :
    fromSsaLegacy (ssa .top c) = keypad .middle c ∧ fromSsaLegacy (ssa .middle c) = keypad .top c ∧
    convertSsa (ssa .top c) = keypad .middle c ∧ convertSsa (ssa .middle c) = keypad .top c := by
  cases c <;> decide

/-- **C46 is violated**: the conversions disagree on 4 and on 13. -/
theorem C46_agree_violated :
    fromSsaLegacy 4 = keypad .bottom .centre ∧ convertSsa 4 = keypad .middle .centre ∧
    fromSsaLegacy 13 = keypad .top .left ∧ convertSsa 13 = keypad .middle .left := by decide

example : ssa .top .centre = 6 ∧ keypad .top .centre = 8 ∧ fromSsaLegacy 6 = 5 := by decide

end Verif.Props.Alignment
