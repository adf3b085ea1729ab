import Verif.Model.Encoding
import Verif.Spec.Encoding
import Verif.Lemmas.Stream
/-! Lemmas about encodings. -/
namespace Verif.Encoding
open Verif
open Verif.Spec.Encoding
open Verif.Stream (decode decodeOne decodeOne_enc decodeOne_sound decode_utf8 enc_ne decodeAux_sound)

theorem valid_nil : Valid [] := ⟨[], rfl⟩

theorem valid_cons {c : Char} {b : List Nat} : Valid (utf8Enc c ++ b) ↔ Valid b := by
  constructor
  · rintro ⟨s, hs⟩
    cases s with
    | nil =>
      have := enc_ne c
      cases he : utf8Enc c with
      | nil => exact absurd he this
      | cons => rw [he] at hs; cases hs
    | cons d s =>
      rw [utf8_cons] at hs
      have h1 := decodeOne_enc d (utf8 s)
      rw [hs, decodeOne_enc] at h1
      simp only [Option.some.injEq, Prod.mk.injEq] at h1
      exact ⟨s, h1.2.symm⟩
  · rintro ⟨s, hs⟩
    exact ⟨c :: s, by rw [utf8_cons, hs]⟩

theorem decodeOne_none {b : List Nat} (h : decodeOne b = none) : ∀ c r, b ≠ utf8Enc c ++ r := by
  intro c r e
  rw [e, decodeOne_enc] at h
  cases h

theorem not_valid {b : List Nat} (hne : b ≠ []) (h : decodeOne b = none) : ¬ Valid b := by
  rintro ⟨s, hs⟩
  cases s with
  | nil => exact hne hs.symm
  | cons c s => exact decodeOne_none h c (utf8 s) (by rw [← hs, utf8_cons])

theorem enc_take {c : Char} {r : List Nat} {n : Nat} (h : (utf8Enc c).length ≤ n) : (utf8Enc c ++ r).take n = utf8Enc c ++ r.take (n - (utf8Enc c).length) := by
  rw [List.take_append, List.take_of_length_le h]

/-- A strict beginning of the encoding of a character is not valid. -/
theorem enc_prefix {c : Char} {m : Nat} (h1 : 0 < m) (h2 : m < (utf8Enc c).length) : ¬ Valid ((utf8Enc c).take m) := by
  rintro ⟨s, hs⟩
  cases s with
  | nil =>
    have := congrArg List.length hs
    rw [List.length_take, Nat.min_eq_left (by omega)] at this
    simp [utf8] at this
    omega
  | cons d s =>
    rw [utf8_cons] at hs
    have h3 := decodeOne_enc c []
    have h4 := decodeOne_enc d (utf8 s ++ (utf8Enc c).drop m)
    rw [← List.append_assoc, hs, List.take_append_drop] at h4
    rw [List.append_nil, h4] at h3
    simp only [Option.some.injEq, Prod.mk.injEq, List.append_eq_nil_iff, List.drop_eq_nil_iff] at h3
    omega

theorem invalidAt_spec : ∀ (k off : Nat) (b : List Nat), b.length ≤ k →
    (invalidAt k off b = none → Valid b) ∧ (∀ n, invalidAt k off b = some n → ∃ m, n = off + m ∧ m < b.length ∧ ValidUpTo b m)
  | k, off, [], _ => ⟨fun _ => valid_nil, fun n h => by cases k <;> cases h⟩
  | 0, _, _ :: _, h => by simp at h
  | k + 1, off, b0 :: t, h => by
    rw [invalidAt]
    cases hd : decodeOne (b0 :: t) with
    | none =>
      refine ⟨nofun, ?_⟩
      intro n hn
      cases hn
      refine ⟨0, rfl, by simp, by simp, valid_nil, ?_⟩
      intro m hm hl hv
      obtain ⟨s, hs⟩ := hv
      cases s with
      | nil =>
        have := congrArg List.length hs
        rw [List.length_take, Nat.min_eq_left hl] at this
        simp [utf8] at this
        omega
      | cons c s =>
        rw [utf8_cons] at hs
        refine decodeOne_none hd c (utf8 s ++ (b0 :: t).drop m) ?_
        rw [← List.append_assoc, hs, List.take_append_drop]
    | some p =>
      obtain ⟨c, r⟩ := p
      have e := decodeOne_sound hd
      simp only
      rw [e]
      have hl : (b0 :: t).length = (utf8Enc c).length + r.length := by rw [e, List.length_append]
      have hp : 0 < (utf8Enc c).length := List.length_pos_iff.2 (enc_ne c)
      obtain ⟨ih1, ih2⟩ := invalidAt_spec k (off + c.utf8Size) r (by simp only [List.length_cons] at h hl; omega)
      refine ⟨fun hn => valid_cons.2 (ih1 hn), ?_⟩
      intro n hn
      obtain ⟨m, h1, h2, h3, h4, h5⟩ := ih2 n hn
      refine ⟨(utf8Enc c).length + m, by rw [h1, length_utf8Enc]; omega, by rw [List.length_append]; omega, by rw [List.length_append]; omega, ?_, ?_⟩
      · rw [enc_take (by omega), show (utf8Enc c).length + m - (utf8Enc c).length = m by omega]
        exact valid_cons.2 h4
      · intro j hj hjl
        rw [enc_take (by omega)]
        rw [List.length_append] at hjl
        intro hv
        exact h5 _ (by omega) (by omega) (valid_cons.1 hv)
    · simp

theorem valid_none : ∀ (k off : Nat) (b : List Nat), b.length ≤ k → Valid b → invalidAt k off b = none := by
  intro k off b h hv
  cases hn : invalidAt k off b with
  | none => rfl
  | some n =>
    obtain ⟨m, _, h2, _, _, h5⟩ := (invalidAt_spec k off b h).2 n hn
    exact absurd (by rw [List.take_length]; exact hv) (h5 b.length h2 (Nat.le_refl _))

theorem enc_ascii {n : Nat} (h : n < 128) : utf8Enc (Char.ofNat n) = [n] := by
  have e : (Char.ofNat n).toNat = n := by
    have : ∀ n, n < 128 → (Char.ofNat n).toNat = n := by decide
    exact this n h
  unfold utf8Enc
  simp only
  rw [e, if_pos h]

/-- ASCII in front changes nothing. -/
theorem valid_ascii : ∀ {a : List Nat} {b : List Nat}, (∀ x ∈ a, x < 128) → (Valid (a ++ b) ↔ Valid b)
  | [], b, _ => Iff.rfl
  | x :: a, b, h => by
    have := valid_cons (c := Char.ofNat x) (b := a ++ b)
    rw [enc_ascii (h x (by simp))] at this
    rw [List.cons_append]
    exact this.trans (valid_ascii (fun y hy => h y (by simp [hy])))

theorem asciiChunks_spec : ∀ (f : Nat) (b : List Nat), (asciiChunks f b).1 = true → ∃ a, (∀ x ∈ a, x < 128) ∧ b = a ++ (asciiChunks f b).2
  | 0, b, _ => ⟨[], by simp, rfl⟩
  | f + 1, b, h => by
    rw [asciiChunks] at h ⊢
    by_cases h1 : 16 ≤ b.length
    · rw [if_pos h1] at h ⊢
      by_cases h2 : (b.take 16).any (fun x => 128 ≤ x) = true
      · rw [if_pos h2] at h; cases h
      · rw [if_neg h2] at h ⊢
        obtain ⟨a, h3, h4⟩ := asciiChunks_spec f (b.drop 16) h
        refine ⟨b.take 16 ++ a, ?_, ?_⟩
        · intro x hx
          rcases List.mem_append.1 hx with hx | hx
          · simp only [List.any_eq_true, not_exists, not_and, decide_eq_true_eq] at h2
            have := h2 x hx
            omega
          · exact h3 x hx
        · rw [List.append_assoc, ← h4, List.take_append_drop]
    · rw [if_neg h1]
      exact ⟨[], by simp, rfl⟩

theorem decode_iff {b : List Nat} {s : Str} : decode b = some s ↔ utf8 s = b := by
  constructor
  · exact fun h => decodeAux_sound _ h
  · rintro rfl; exact decode_utf8 s

theorem lossy_spec {bad : List Nat → Nat} : ∀ (k : Nat) (b : List Nat), b.length ≤ k → ∃ n, Recovered b (lossy bad k b) n ∧ n ≤ countReplacement (lossy bad k b)
  | k, [], _ => ⟨0, by cases k <;> exact .nil, by simp⟩
  | 0, _ :: _, h => by simp at h
  | k + 1, b0 :: t, h => by
    rw [lossy]
    cases hd : decodeOne (b0 :: t) with
    | some p =>
      obtain ⟨c, r⟩ := p
      have e := decodeOne_sound hd
      have hp : 0 < (utf8Enc c).length := List.length_pos_iff.2 (enc_ne c)
      have hl : (b0 :: t).length = (utf8Enc c).length + r.length := by rw [e, List.length_append]
      obtain ⟨n, h1, h2⟩ := lossy_spec (bad := bad) k r (by simp only [List.length_cons] at h hl; omega)
      refine ⟨n, ?_, ?_⟩
      · rw [e]; exact .char h1
      · simp only [countReplacement, List.count_cons]
        unfold countReplacement at h2
        omega
    | none =>
      obtain ⟨n, h1, h2⟩ := lossy_spec (bad := bad) k ((b0 :: t).drop (max 1 (bad (b0 :: t)))) (by
        rw [List.length_drop]; simp only [List.length_cons] at h ⊢; omega)
      refine ⟨n + 1, ?_, ?_⟩
      · have := Recovered.bad (x := (b0 :: t).take (max 1 (bad (b0 :: t)))) (b := (b0 :: t).drop (max 1 (bad (b0 :: t)))) (by
          intro e
          have := congrArg List.length e
          rw [List.length_take] at this
          simp only [List.length_cons, List.length_nil] at this
          omega) (by rw [List.take_append_drop]; exact decodeOne_none hd) h1
        rw [List.take_append_drop] at this
        exact this
      · simp only [countReplacement, List.count_cons_self]
        unfold countReplacement at h2
        omega
    · simp

theorem validChar_iff (c : Char) : validChar c = true ↔ Allowed c := by
  unfold validChar Allowed Control Utf8.isControl
  have key : ∀ d : Char, (c == d) = true ↔ c.toNat = d.toNat := by
    intro d
    rw [beq_iff_eq]
    exact ⟨fun e => by rw [e], fun e => Char.ext (UInt32.toNat_inj.1 e)⟩
  have key' : ∀ d : Char, c = d ↔ c.toNat = d.toNat := fun d => ⟨fun e => by rw [e], fun e => Char.ext (UInt32.toNat_inj.1 e)⟩
  simp only [Bool.or_eq_true, Bool.and_eq_true, decide_eq_true_eq, Bool.not_eq_true', decide_eq_false_iff_not, key, key', Bool.or_eq_false_iff, Bool.and_eq_false_imp]
  have e1 : ' '.toNat = 32 := rfl
  have e2 : '\t'.toNat = 9 := rfl
  have e3 : '\n'.toNat = 10 := rfl
  have e4 : '\r'.toNat = 13 := rfl
  rw [e1, e2, e3, e4]
  omega

end Verif.Encoding
