import Verif.Model.Formats
import Verif.Model.Time
import Verif.Spec.Formats
import Verif.Lemmas.Str
import Verif.Lemmas.Color
/-! Lemmas for C30–C32. -/
namespace Verif.Formats
open Verif Verif.Spec.Fmt

/-! ## Stripping -/

theorem stripStep_none {s : Str} (h : stripStep s = none) :
    '{' ∉ s ∨ ∃ a b, s = a ++ '{' :: b ∧ '{' ∉ a ∧ '}' ∉ b := by
  unfold stripStep at h
  split at h
  · next e => exact .inl (splitOnce_eq_none e)
  · next a r e =>
    obtain ⟨e1, e2⟩ := splitOnce_some e
    split at h
    · next e' => exact .inr ⟨a, r, e1, e2, splitOnce_eq_none e'⟩
    · simp at h

theorem stripStep_some {s t : Str} (h : stripStep s = some t) :
    ∃ a b c, s = a ++ '{' :: b ++ '}' :: c ∧ '{' ∉ a ∧ '}' ∉ b ∧ t = a ++ c := by
  unfold stripStep at h
  split at h
  · simp at h
  · next a r e =>
    obtain ⟨e1, e2⟩ := splitOnce_some e
    split at h
    · simp at h
    · next b c e' =>
      obtain ⟨e3, e4⟩ := splitOnce_some e'
      injection h with h
      exact ⟨a, b, c, by rw [e1, e3]; simp, e2, e4, h.symm⟩

/-- Two splits at a brace agree. -/
theorem split_inj {x : Char} {a a' r r' : Str} (h : a ++ x :: r = a' ++ x :: r') (ha : x ∉ a) (ha' : x ∉ a') :
    a = a' ∧ r = r' := by
  have h1 := splitOnce_append r ha
  rw [h, splitOnce_append r' ha'] at h1
  simp only [Option.some.injEq, Prod.mk.injEq] at h1
  exact ⟨h1.1.symm, h1.2.symm⟩

theorem _root_.Verif.Spec.Fmt.Stripped.prepend {p c c' : Str} (hp : '{' ∉ p) (h : Stripped c c') : Stripped (p ++ c) (p ++ c') := by
  cases h with
  | plain _ h => exact .plain _ (by simp [hp, h])
  | unclosed a b ha hb =>
    rw [← List.append_assoc]
    exact .unclosed _ _ (by simp [hp, ha]) hb
  | block a b c c' ha hb h =>
    rw [← List.append_assoc, ← List.append_assoc, ← List.append_assoc]
    exact .block _ _ _ _ (by simp [hp, ha]) hb h

/-- What is stripped does not depend on text without an opening brace in front. -/
theorem _root_.Verif.Spec.Fmt.Stripped.unprepend {p s : Str} (hp : '{' ∉ p) {t : Str} (h : Stripped (p ++ s) t) :
    ∃ t', t = p ++ t' ∧ Stripped s t' := by
  generalize e : p ++ s = q at h
  cases h with
  | plain _ h => subst e; exact ⟨s, rfl, .plain _ (by simp at h; exact h.2)⟩
  | unclosed a b ha hb =>
    have hm : '{' ∈ s := by
      have : '{' ∈ p ++ s := by rw [e]; simp
      simpa [hp] using this
    obtain ⟨a1, b1, hs, ha1⟩ := List.append_of_mem hm |> fun ⟨x, y, hxy⟩ =>
      (match h : splitOnce '{' s with
        | none => absurd hm (splitOnce_eq_none h)
        | some (u, v) => ⟨u, v, splitOnce_some h⟩ : ∃ a1 b1, s = a1 ++ '{' :: b1 ∧ '{' ∉ a1)
    rw [hs, ← List.append_assoc] at e
    obtain ⟨e1, e2⟩ := split_inj e (by simp [hp, ha1]) ha
    subst e1 e2 hs
    exact ⟨a1 ++ '{' :: b1, by simp, .unclosed _ _ ha1 hb⟩
  | block a b c c' ha hb h =>
    have hm : '{' ∈ s := by
      have : '{' ∈ p ++ s := by rw [e]; simp
      simpa [hp] using this
    obtain ⟨a1, b1, hs, ha1⟩ :=
      (match h : splitOnce '{' s with
        | none => absurd hm (splitOnce_eq_none h)
        | some (u, v) => ⟨u, v, splitOnce_some h⟩ : ∃ a1 b1, s = a1 ++ '{' :: b1 ∧ '{' ∉ a1)
    rw [hs, ← List.append_assoc, List.append_assoc a, List.cons_append] at e
    obtain ⟨e1, e2⟩ := split_inj e (by simp [hp, ha1]) ha
    subst e1 e2 hs
    refine ⟨a1 ++ c', by simp, ?_⟩
    have := Stripped.block a1 b c c' ha1 hb h
    simpa using this

theorem stripLoop_spec (k : Nat) : ∀ s : Str, s.length ≤ k → Stripped s (stripLoop k s) := by
  induction k with
  | zero =>
    intro s hs
    have : s = [] := List.length_eq_zero_iff.1 (by omega)
    subst this
    exact .plain _ (by simp)
  | succ k ih =>
    intro s hs
    rw [stripLoop]
    split
    · next e =>
      rcases stripStep_none e with h | ⟨a, b, rfl, ha, hb⟩
      · exact .plain _ h
      · exact .unclosed _ _ ha hb
    · next t e =>
      obtain ⟨a, b, c, rfl, ha, hb, rfl⟩ := stripStep_some e
      have := ih (a ++ c) (by simp at hs ⊢; omega)
      obtain ⟨t', ht, hc⟩ := Stripped.unprepend ha this
      rw [ht]
      exact .block _ _ _ _ ha hb hc

theorem _root_.Verif.Spec.Fmt.Stripped.unique {s t : Str} (h : Stripped s t) : ∀ {u}, Stripped s u → t = u := by
  induction h with
  | plain s hs =>
    intro u h
    cases h with
    | plain => rfl
    | unclosed => rfl
    | block a b c c' ha hb h => simp at hs
  | unclosed a b ha hb =>
    intro u h
    generalize e : a ++ '{' :: b = q at h
    cases h with
    | plain => rfl
    | unclosed => rfl
    | block a' b' c c' ha' hb' h =>
      rw [List.append_assoc, List.cons_append] at e
      obtain ⟨e1, e2⟩ := split_inj e ha ha'
      subst e2
      simp at hb
  | block a b c c' ha hb h ih =>
    intro u h
    generalize e : a ++ '{' :: b ++ '}' :: c = q at h
    cases h with
    | plain _ h => subst e; simp at h
    | unclosed a' b' ha' hb' =>
      rw [List.append_assoc, List.cons_append] at e
      obtain ⟨e1, e2⟩ := split_inj e ha ha'
      subst e2
      simp at hb'
    | block a' b' d d' ha' hb' h' =>
      rw [List.append_assoc, List.cons_append, List.append_assoc, List.cons_append] at e
      obtain ⟨e1, e2⟩ := split_inj e ha ha'
      obtain ⟨e3, e4⟩ := split_inj e2 hb hb'
      subst e4
      rw [e1, ih h']

theorem _root_.Verif.Spec.Fmt.Stripped.noBlock {s t : Str} (h : Stripped s t) : NoBlock t := by
  induction h with
  | plain s h =>
    intro a b c e
    subst e
    simp at h
  | unclosed a b ha hb =>
    intro a' b' c' e
    have hx : '}' ∉ ('{' :: b) := by simp [hb]
    rw [List.append_assoc, List.cons_append] at e
    rcases List.append_eq_append_iff.1 e with ⟨x, e1, e2⟩ | ⟨x, e1, e2⟩
    · have : '}' ∈ '{' :: b := by rw [e2]; simp
      exact hx this
    · cases x with
      | nil => simp at e2; exact hb (by rw [← e2]; simp)
      | cons y x =>
        simp at e2
        exact ha (by rw [e1, ← e2.1]; simp)
  | block a b c c' ha hb h ih =>
    intro p q r e
    rw [List.append_assoc, List.cons_append] at e
    rcases List.append_eq_append_iff.1 e with ⟨x, e1, e2⟩ | ⟨x, e1, e2⟩
    · exact ih x q r (by rw [e2]; simp)
    · cases x with
      | nil => exact ih [] q r (by simp at e2; rw [← e2]; simp)
      | cons y x =>
        simp at e2
        exact ha (by rw [e1, ← e2.1]; simp)

theorem stripped_of_noBlock {s : Str} (h : NoBlock s) : Stripped s s := by
  match e : splitOnce '{' s with
  | none => exact .plain _ (splitOnce_eq_none e)
  | some (a, r) =>
    obtain ⟨e1, e2⟩ := splitOnce_some e
    match e' : splitOnce '}' r with
    | none => rw [e1]; exact .unclosed _ _ e2 (splitOnce_eq_none e')
    | some (b, c) =>
      obtain ⟨e3, _⟩ := splitOnce_some e'
      exact absurd (by rw [e1, e3]; simp) (h a b c)

/-! ## Digits -/

theorem digitChar_isDigit {d : Nat} (h : d < 10) : (Nat.digitChar d).isDigit = true := by
  have : ∀ d : Fin 10, (Nat.digitChar d.1).isDigit = true := by decide
  exact this ⟨d, h⟩

theorem digitChar_ne_zero {d : Nat} (h : d < 10) (h0 : 0 < d) : Nat.digitChar d ≠ '0' := by
  have : ∀ d : Fin 10, 0 < d.1 → Nat.digitChar d.1 ≠ '0' := by decide
  exact this ⟨d, h⟩ h0

theorem showNat_small {n : Nat} (h : n < 10) : showNat n = [Nat.digitChar n] := Nat.toDigits_of_lt_base h

theorem showNat_big {n : Nat} (h : 10 ≤ n) : showNat n = showNat (n / 10) ++ [Nat.digitChar (n % 10)] := by
  rw [showNat, Nat.toDigits_of_base_le (by decide) h]; rfl

theorem showNat_lt100 {n : Nat} (h1 : 10 ≤ n) (h : n < 100) : showNat n = two n := by
  rw [showNat_big h1, showNat_small (by omega)]; rfl

theorem showPad_two {n : Nat} (h : n < 100) : showPad 2 n = two n := by
  unfold showPad
  by_cases h1 : n < 10
  · rw [showNat_small h1]
    unfold two
    rw [Nat.div_eq_of_lt h1, Nat.mod_eq_of_lt h1]
    rfl
  · rw [showNat_lt100 (by omega) h]; rfl

theorem showPad_hours (h : Nat) : showPad 2 h = hours2 h := by
  unfold hours2
  split
  · next h' => exact showPad_two h'
  · next h' =>
    unfold showPad
    rw [showNat_big (by omega), showNat_big (by omega), showNat]
    have : 2 - (Nat.toDigits 10 (h / 10 / 10) ++ [Nat.digitChar (h / 10 % 10)] ++ [Nat.digitChar (h % 10)]).length = 0 := by
      simp
    rw [this]
    have := @showNat_big h (by omega)
    rw [showNat_big (n := h / 10) (by omega)] at this
    exact this.symm

theorem showPad_three {n : Nat} (h : n < 1000) : showPad 3 n = three n := by
  unfold showPad three
  by_cases h1 : n < 10
  · rw [showNat_small h1]
    unfold two
    rw [Nat.div_eq_of_lt (show n < 100 by omega), Nat.mod_eq_of_lt (show n < 100 by omega),
      Nat.div_eq_of_lt h1, Nat.mod_eq_of_lt h1]
    rfl
  · by_cases h2 : n < 100
    · rw [showNat_lt100 (by omega) h2, Nat.div_eq_of_lt h2, Nat.mod_eq_of_lt h2]; rfl
    · rw [showNat_big (by omega), showNat_big (by omega), showNat_small (by omega)]
      unfold two
      have e1 : n / 10 / 10 = n / 100 := by omega
      have e2 : n / 10 % 10 = n % 100 / 10 := by omega
      have e3 : n % 10 = n % 100 % 10 := by omega
      rw [e1, e2, ← e3]; rfl

theorem dropZero_pad (h : Nat) : dropZero (showPad 2 h) = showNat h := by
  have head : ∀ k n : Nat, n ≤ k → 0 < n → ∀ t, showNat n ≠ '0' :: t := by
    intro k
    induction k with
    | zero => intro n h1 h2; omega
    | succ k ih =>
      intro n h1 h2 t
      by_cases h10 : n < 10
      · rw [showNat_small h10]
        simp [digitChar_ne_zero h10 h2]
      · rw [showNat_big (by omega)]
        intro e
        have hne := showNat_ne_nil (n / 10)
        match e' : showNat (n / 10) with
        | [] => exact hne e'
        | x :: u =>
          rw [e'] at e
          simp at e
          exact ih (n / 10) (by omega) (by omega) u (by rw [e', e.1])
  by_cases h10 : h < 10
  · unfold showPad
    rw [showNat_small h10]; rfl
  · have e : showPad 2 h = showNat h := by
      unfold showPad
      have : 2 - (showNat h).length = 0 := by
        rw [showNat_big (by omega)]
        have := List.length_pos_iff.2 (showNat_ne_nil (h / 10))
        simp; omega
      rw [this]; rfl
    rw [e]
    unfold dropZero
    split
    · next c t e => exact absurd e (head h h (Nat.le_refl _) (by omega) _)
    · rfl

theorem showNat_no (n : Nat) (c : Char) (hc : c.isDigit = false) : c ∉ showNat n :=
  not_isDigit_mem (showNat_digits n) hc

theorem showPad_no (w n : Nat) (c : Char) (hc : c.isDigit = false) : c ∉ showPad w n :=
  not_isDigit_mem (showPad_digits w n) hc

end Verif.Formats

namespace Verif
/-- Replacing one character. -/
theorem replaceAll_char (x y : Char) (s : Str) : replaceAll [x] [y] s = s.map (fun c => if c = x then y else c) := by
  unfold replaceAll
  induction s with
  | nil => rfl
  | cons c s ih =>
    unfold replaceAux
    by_cases h : c = x
    · subst h
      simp [stripPrefix, ih]
    · have h' : ¬ x = c := fun e => h e.symm
      simp [stripPrefix, h, h', ih]

theorem replaceAll_char_of_not_mem {x y : Char} {s : Str} (h : x ∉ s) : replaceAll [x] [y] s = s := by
  rw [replaceAll_char]
  conv => rhs; rw [← List.map_id s]
  apply List.map_congr_left
  intro c hc
  have : c ≠ x := fun e => h (e ▸ hc)
  simp [this]
end Verif

namespace Verif.Formats
open Verif Verif.Spec.Fmt

theorem splitOn3 {a b c : Str} (ha : ':' ∉ a) (hb : ':' ∉ b) (hc : ':' ∉ c) :
    splitOn ':' (a ++ ':' :: b ++ ':' :: c) = [a, b, c] := by
  rw [List.append_assoc, List.cons_append, splitOn_append_sep _ ha, splitOn_append_sep _ hb, splitOn_of_not_mem hc]

theorem assStamp_eq {h m s c : Nat} (hm : m < 100) (hs : s < 100) (hc : c < 100) :
    assStamp h m s c = showNat h ++ ':' :: showPad 2 m ++ ':' :: showPad 2 s ++ '.' :: showPad 2 c := by
  unfold assStamp
  rw [showPad_two hm, showPad_two hs, showPad_two hc]; rfl

theorem assTime_eq {h m s c : Nat} (hm : m < 100) (hs : s < 100) (hc : c < 100) : assTime h m s c = assStamp h m s c :=
  (assStamp_eq hm hs hc).symm

theorem stamp_eq {sep : Char} {h m s ms : Nat} (hm : m < 100) (hs : s < 100) (hc : ms < 1000) :
    stamp sep h m s ms = showPad 2 h ++ ':' :: showPad 2 m ++ ':' :: showPad 2 s ++ sep :: showPad 3 ms := by
  unfold stamp
  rw [showPad_two hm, showPad_two hs, showPad_three hc, showPad_hours]

theorem shortStamp_eq {m s ms : Nat} (hm : m < 100) (hs : s < 100) (hc : ms < 1000) :
    shortStamp m s ms = showPad 2 m ++ ':' :: showPad 2 s ++ '.' :: showPad 3 ms := by
  unfold shortStamp
  rw [showPad_two hm, showPad_two hs, showPad_three hc]

theorem isWs_of_digit {c : Char} (h : c.isDigit) : isWs c = false := by
  simp only [Char.isDigit, Bool.and_eq_true, decide_eq_true_eq] at h
  have h1 : 48 ≤ c.toNat := by have := h.1; simpa [UInt32.le_iff_toNat_le] using this
  have h2 : c.toNat ≤ 57 := by have := h.2; simpa [UInt32.le_iff_toNat_le] using this
  unfold isWs
  simp only [Bool.or_eq_false_iff, Bool.and_eq_false_iff, decide_eq_false_iff_not, beq_eq_false_iff_ne]
  omega

/-- Text that starts and ends with a digit is not changed by trimming. -/
theorem trim_digits {a b x : Str} (ha : a ≠ []) (hb : b ≠ []) (hda : ∀ c ∈ a, c.isDigit) (hdb : ∀ c ∈ b, c.isDigit) :
    trim (a ++ x ++ b) = a ++ x ++ b := by
  apply Color.trim_of_edges
  · intro c hc
    cases a with
    | nil => exact absurd rfl ha
    | cons y a => simp at hc; subst hc; exact isWs_of_digit (hda _ (by simp))
  · intro c hc
    have hl : b.getLast? = some (b.getLast hb) := List.getLast?_eq_some_getLast hb
    rw [List.getLast?_append, hl] at hc
    simp at hc
    rw [← hc]
    exact isWs_of_digit (hdb _ (List.getLast_mem hb))

theorem parseSecMs_pad {w s ms : Nat} (hs : s < u32Bound) (hm : ms < u32Bound) :
    parseSecMs (showPad 2 s ++ '.' :: showPad w ms) = some (s, ms / 10) := by
  unfold parseSecMs
  rw [splitOn_append_sep _ (showPad_no _ _ _ (by decide)), splitOn_of_not_mem (showPad_no _ _ _ (by decide))]
  simp only [parseU32_showPad hs, parseU32_showPad hm, Option.getD_some]

end Verif.Formats
