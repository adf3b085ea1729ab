import Verif.Lemmas.Time
/-!
# C01, C02 — ASS time strings
-/
namespace Verif.Props
open Verif Verif.Time Verif.Spec

/-- **C01.** For every 32-bit centisecond count, parsing its printed form gives it back. -/
theorem C01_time_roundtrip (n : Nat) (hn : n < 2 ^ 32) :
    parseAssTime (formatAssTime n) = .ok n := by
  have hraw : rawValue (formatAssTime n) = some n := by
    rw [rawValue_iff]
    have hu : ∀ w k, k < 2 ^ 32 → U32Text (showPad w k) k := fun w k hk =>
      ⟨hk, Or.inl ⟨showPad_ne_nil w k, showPad_digits w k, ofDigitChars_showPad w k⟩⟩
    refine ⟨showNat (n / 360000), showPad 2 (n % 360000 / 6000), showPad 2 (n % 360000 % 6000 / 100),
      '.' :: showPad 2 (n % 360000 % 6000 % 100), n / 360000, n % 360000 / 6000,
      n % 360000 % 6000 / 100, n % 360000 % 6000 % 100, ?_, ?_, hu _ _ (by omega), hu _ _ (by omega),
      Or.inr (Or.inl ⟨_, rfl, ⟨showPad_ne_nil _ _, showPad_digits _ _, ofDigitChars_showPad _ _⟩,
        by omega⟩), by omega, by omega, by omega⟩
    · simp [formatAssTime]
    · exact ⟨by omega, Or.inl ⟨showNat_ne_nil _, showNat_digits _, ofDigitChars_showNat _⟩⟩
  rw [parse_eq_rawValue, hraw]
  simp only []
  rw [if_pos (by omega)]

/-- Concrete instance: the largest `u32` (11930 hours). -/
example : formatAssTime 4294967295 = "11930:27:52.95".toList ∧
    parseAssTime (formatAssTime 4294967295) = .ok 4294967295 := by decide

/-- **C01.** Distinct times print differently. -/
theorem C01_format_injective (m n : Nat) (hm : m < 2 ^ 32) (hn : n < 2 ^ 32)
    (h : formatAssTime m = formatAssTime n) : m = n := by
  have h1 := C01_time_roundtrip m hm
  rw [h, C01_time_roundtrip n hn] at h1
  injection h1 with h1
  exact h1.symm

example : formatAssTime 5999 = "0:00:59.99".toList ∧ formatAssTime 6000 = "0:01:00.00".toList := by
  decide

/-- **C02.** Exact characterisation of the accepted strings and their value. -/
theorem C02_parse_accepts_iff (s : List Char) (v : Nat) :
    parseAssTime s = .ok v ↔ TimeText s v ∧ v < 2 ^ 32 := by
  rw [parse_eq_rawValue, ← rawValue_iff]
  cases h : rawValue s with
  | none => simp
  | some w =>
    simp only []
    constructor
    · intro h'
      split at h'
      · next hlt => injection h' with h'; subst h'; exact ⟨rfl, hlt⟩
      · simp at h'
    · rintro ⟨e, hlt⟩
      simp at e; subst e
      rw [if_pos hlt]

example : TimeText "1:02:03.45".toList 372345 :=
  ((C02_parse_accepts_iff _ _).1 (by decide)).1

/-- **C02.** Everything that does not denote a time is rejected with an error. -/
theorem C02_parse_rejects_iff (s : List Char) :
    parseAssTime s = .err ↔ ¬ ∃ v, TimeText s v := by
  rw [parse_eq_rawValue]
  cases h : rawValue s with
  | none =>
    simp only [true_iff]
    rintro ⟨v, hv⟩
    rw [← rawValue_iff, h] at hv
    simp at hv
  | some w =>
    constructor
    · intro h'; simp only at h'; split at h' <;> simp at h'
    · intro h'; exact absurd ⟨w, rawValue_iff.1 h⟩ h'

example : parseAssTime "0:60:00.00".toList = .err ∧ parseAssTime "1:02".toList = .err ∧
    parseAssTime "0:00:00.-1".toList = .err := by decide

/-- **C02, disagreement.** "Never a crash": a syntactically valid time of more than
2^32-1 centiseconds overflows the final `u32` expression. -/
theorem C02_no_overflow_violated :
    ¬ ∀ s : List Char, parseAssTime s ≠ .overflow := by
  intro h
  exact h "11931:00:00.00".toList (by decide)

/-- **C02.** The overflow happens exactly for time strings whose value does not fit. -/
theorem C02_overflow_iff (s : List Char) :
    parseAssTime s = .overflow ↔ ∃ v, TimeText s v ∧ 2 ^ 32 ≤ v := by
  rw [parse_eq_rawValue]
  cases h : rawValue s with
  | none =>
    simp only [reduceCtorEq, false_iff]
    rintro ⟨v, hv, _⟩
    rw [← rawValue_iff, h] at hv
    simp at hv
  | some w =>
    simp only []
    constructor
    · intro h'
      split at h'
      · simp at h'
      · next hlt => exact ⟨w, rawValue_iff.1 h, Nat.not_lt.1 hlt⟩
    · rintro ⟨v, hv, hle⟩
      rw [← rawValue_iff, h] at hv
      simp at hv; subst hv
      rw [if_neg (Nat.not_lt.2 hle)]

example : ∃ v, TimeText "11931:00:00.00".toList v ∧ 2 ^ 32 ≤ v :=
  (C02_overflow_iff _).1 (by decide)

end Verif.Props
