import Verif.Model.Simd
import Verif.Spec.Tokenizer
import Verif.Lemmas.Tokenizer
import Verif.Lemmas.Stream
import Verif.Lemmas.Color
/-! Lemmas about accelerated scanning. -/
namespace Verif.Simd
open Verif
open Verif.Spec.Script (size)
open Verif.Spec.Tokenizer (Hex Digit)

theorem scanScalar_eq : ∀ b, scanScalar b = b.findIdx? isDelimByte
  | [] => rfl
  | x :: r => by
    rw [scanScalar, List.findIdx?_cons, scanScalar_eq r]

theorem scanChunks_eq : ∀ (f k : Nat) (b : List Nat), b.length < f * 16 → scanChunks f k b = (b.findIdx? isDelimByte).map (k * 16 + ·)
  | 0, _, _, h => by omega
  | f + 1, k, b, hf => by
    rw [scanChunks]
    by_cases h : 16 ≤ b.length
    · rw [if_pos h]
      have e : b.findIdx? isDelimByte = ((b.take 16).findIdx? isDelimByte).or (((b.drop 16).findIdx? isDelimByte).map (· + 16)) := by
        have := List.findIdx?_append (xs := b.take 16) (ys := b.drop 16) (p := isDelimByte)
        rw [List.take_append_drop, List.length_take, Nat.min_eq_left h] at this
        exact this
      cases hi : (b.take 16).findIdx? isDelimByte with
      | some i => rw [e, hi]; rfl
      | none =>
        rw [e, hi]
        simp only [Option.none_or, Option.map_map]
        rw [scanChunks_eq f (k + 1) (b.drop 16) (by rw [List.length_drop]; omega)]
        congr 1
        funext x
        simp only [Function.comp]
        omega
    · rw [if_neg h]
      by_cases hb : b = []
      · rw [hb]; simp
      · rw [if_pos hb, scanScalar_eq]

theorem scanDelimiters_eq (s : Str) : scanDelimiters s = (utf8 s).findIdx? isDelimByte := by
  unfold scanDelimiters
  by_cases h : 16 ≤ (utf8 s).length
  · rw [if_pos h, scanChunks_eq _ _ _ (by omega)]
    cases (utf8 s).findIdx? isDelimByte <;> simp
  · rw [if_neg h, scanScalar_eq]

theorem enc_delim (c : Char) : (utf8Enc c).findIdx? isDelimByte = if Tokenizer.isDelim c then some 0 else none := by
  by_cases h : c.toNat < 0x80
  · have : utf8Enc c = [c.toNat] := by unfold utf8Enc; simp only; rw [if_pos h]
    rw [this, List.findIdx?_cons]
    have e : isDelimByte c.toNat = Tokenizer.isDelim c := by
      have key : ∀ d : Char, (c.toNat == d.toNat) = (c == d) := by
        intro d
        rw [Bool.eq_iff_iff, beq_iff_eq, beq_iff_eq]
        exact ⟨fun e => Char.ext (UInt32.toNat_inj.1 e), fun e => by rw [e]⟩
      unfold isDelimByte Tokenizer.isDelim
      rw [← key ':', ← key ',', ← key '{', ← key '}', ← key '[', ← key ']', ← key '\n', ← key '\r']
      rfl
    rw [e]; rfl
  · have h1 : ∀ x ∈ utf8Enc c, 128 ≤ x := by
      unfold utf8Enc
      simp only
      rw [if_neg h]
      split
      · intro x hx
        simp only [List.mem_cons, List.not_mem_nil, or_false] at hx
        omega
      · split
        · intro x hx
          simp only [List.mem_cons, List.not_mem_nil, or_false] at hx
          omega
        · intro x hx
          simp only [List.mem_cons, List.not_mem_nil, or_false] at hx
          omega
    have h2 : Tokenizer.isDelim c = false := by
      cases hd : Tokenizer.isDelim c with
      | false => rfl
      | true =>
        unfold Tokenizer.isDelim at hd
        simp only [Bool.or_eq_true, beq_iff_eq] at hd
        rcases hd with ((((((rfl | rfl) | rfl) | rfl) | rfl) | rfl) | rfl) | rfl <;> exact absurd (by decide) h
    rw [h2, if_neg (by simp), List.findIdx?_eq_none_iff]
    intro x hx
    have := h1 x hx
    unfold isDelimByte
    simp only [Bool.or_eq_false_iff, beq_eq_false_iff_ne]
    omega

theorem first_delim : ∀ (s : Str), (utf8 s).findIdx? isDelimByte =
    if s.dropWhile (fun c => !Tokenizer.isDelim c) = [] then none else some (size (s.takeWhile (fun c => !Tokenizer.isDelim c)))
  | [] => rfl
  | c :: s => by
    rw [utf8_cons, List.findIdx?_append, enc_delim, first_delim s]
    cases h : Tokenizer.isDelim c
    · simp only [List.dropWhile_cons, List.takeWhile_cons, h, Bool.not_false, if_true, Bool.false_eq_true, if_false, Option.none_or]
      by_cases hd : s.dropWhile (fun c => !Tokenizer.isDelim c) = []
      · rw [if_pos hd, if_pos hd]; rfl
      · rw [if_neg hd, if_neg hd, Option.map_some, length_utf8Enc]
        simp only [size, List.map_cons, List.sum_cons, Option.some.injEq]
        omega
    · simp [List.dropWhile_cons, List.takeWhile_cons, h, size]

/-! ### Hexadecimal numbers -/

/-- The number that a hexadecimal digit stands for. -/
theorem byteDigit_hex {c : Char} (h : Hex c) : ∃ d, byteDigit c.toNat = some d ∧ digitVal 16 c = some d ∧ Spec.hexDigit c = some d ∧ d < 16 := by
  have key : ∀ n, n < 128 → (∀ d, byteDigit n = some d → byteDigit n = some d ∧ digitVal 16 (Char.ofNat n) = some d ∧ Spec.hexDigit (Char.ofNat n) = some d ∧ d < 16) := by
    intro n hn
    have : ∀ n, n < 128 → (match byteDigit n with
      | none => true
      | some d => decide (digitVal 16 (Char.ofNat n) = some d ∧ Spec.hexDigit (Char.ofNat n) = some d ∧ d < 16)) = true := by decide
    intro d hd
    have := this n hn
    rw [hd] at this
    exact ⟨hd, of_decide_eq_true this⟩
  have hlt : c.toNat < 128 := by unfold Hex Digit at h; omega
  have hs : ∃ d, byteDigit c.toNat = some d := by
    unfold byteDigit
    unfold Hex Digit at h
    by_cases h1 : 48 ≤ c.toNat ∧ c.toNat ≤ 57
    · rw [if_pos h1]; exact ⟨_, rfl⟩
    · rw [if_neg h1]
      by_cases h2 : 65 ≤ c.toNat ∧ c.toNat ≤ 70
      · rw [if_pos h2]; exact ⟨_, rfl⟩
      · rw [if_neg h2, if_pos (by omega)]; exact ⟨_, rfl⟩
  obtain ⟨d, hd⟩ := hs
  refine ⟨d, ?_⟩
  have := key c.toNat hlt d hd
  rw [Char.ofNat_toNat] at this
  exact this

/-- The number that hexadecimal digits stand for. -/
def value : Nat → Str → Nat
  | acc, [] => acc
  | acc, c :: s => value (acc * 16 + (Spec.hexDigit c).getD 0) s

theorem value_lt : ∀ (s : Str) (acc : Nat), (∀ c ∈ s, Hex c) → value acc s < (acc + 1) * 16 ^ s.length
  | [], acc, _ => by simp [value]
  | c :: s, acc, h => by
    obtain ⟨d, _, _, h3, h4⟩ := byteDigit_hex (h c (by simp))
    have := value_lt s (acc * 16 + d) (fun x hx => h x (by simp [hx]))
    rw [value, h3, Option.getD_some, List.length_cons]
    refine Nat.lt_of_lt_of_le this ?_
    rw [Nat.pow_succ, Nat.mul_comm (16 ^ s.length) 16, ← Nat.mul_assoc]
    exact Nat.mul_le_mul_right _ (by omega)

theorem value_le : ∀ (s : Str) (acc : Nat), acc ≤ value acc s
  | [], _ => Nat.le_refl _
  | c :: s, acc => by
    have := value_le s (acc * 16 + (Spec.hexDigit c).getD 0)
    rw [value]; omega

theorem utf8_hex {c : Char} (h : Hex c) : utf8Enc c = [c.toNat] := by
  unfold utf8Enc
  simp only
  rw [if_pos]
  unfold Hex Digit at h
  omega

theorem hexLoop_eq : ∀ (s : Str) (acc : Nat), (∀ c ∈ s, Hex c) → value acc s < u32Bound → hexLoop acc (utf8 s) = some (value acc s)
  | [], acc, _, _ => rfl
  | c :: s, acc, h, hv => by
    obtain ⟨d, h1, _, h3, h4⟩ := byteDigit_hex (h c (by simp))
    rw [utf8_cons, utf8_hex (h c (by simp)), List.singleton_append, hexLoop, h1]
    rw [value, h3, Option.getD_some] at hv ⊢
    have := value_le s (acc * 16 + d)
    simp only
    rw [if_pos (by omega)]
    exact hexLoop_eq s _ (fun x hx => h x (by simp [hx])) hv

theorem digitsVal_eq : ∀ (s : Str) (acc : Nat), (∀ c ∈ s, Hex c) → digitsVal 16 acc s = some (value acc s)
  | [], acc, _ => rfl
  | c :: s, acc, h => by
    obtain ⟨d, _, h2, h3, _⟩ := byteDigit_hex (h c (by simp))
    rw [digitsVal, h2, value, h3]
    exact digitsVal_eq s _ (fun x hx => h x (by simp [hx]))

theorem hexLoop_none : ∀ (s : Str) (acc : Nat), (∃ c ∈ s, ¬ Hex c) → hexLoop acc (utf8 s) = none
  | [], acc, h => by simp at h
  | c :: s, acc, h => by
    rw [utf8_cons]
    by_cases hc : Hex c
    · rw [utf8_hex hc, List.singleton_append, hexLoop]
      have ih : ∀ a, hexLoop a (utf8 s) = none := by
        intro a
        apply hexLoop_none s a
        obtain ⟨x, hx, hn⟩ := h
        rcases List.mem_cons.1 hx with rfl | hx
        · exact absurd hc hn
        · exact ⟨x, hx, hn⟩
      cases byteDigit c.toNat with
      | none => rfl
      | some d =>
        simp only
        split
        · exact ih _
        · rfl
    · have hb : ∃ b r, utf8Enc c = b :: r ∧ byteDigit b = none := by
        have nodigit : ∀ b, ¬ ((48 ≤ b ∧ b ≤ 57) ∨ (65 ≤ b ∧ b ≤ 70) ∨ (97 ≤ b ∧ b ≤ 102)) → byteDigit b = none := by
          intro b h
          unfold byteDigit
          rw [if_neg (by omega), if_neg (by omega), if_neg (by omega)]
        unfold Hex Digit at hc
        unfold utf8Enc
        simp only
        by_cases h1 : c.toNat < 0x80
        · rw [if_pos h1]; exact ⟨_, _, rfl, nodigit _ hc⟩
        · rw [if_neg h1]
          split
          · exact ⟨_, _, rfl, nodigit _ (by omega)⟩
          · split
            · exact ⟨_, _, rfl, nodigit _ (by omega)⟩
            · exact ⟨_, _, rfl, nodigit _ (by omega)⟩
      obtain ⟨b, r, h1, h2⟩ := hb
      rw [h1, List.cons_append, hexLoop, h2]

end Verif.Simd
