import Verif.Lemmas.Utf8
/-!
# C05, C06, C07 — line endings, byte order marks, truncation
-/
namespace Verif.Props
open Verif Verif.Utf8 Verif.Spec

/-- **C05.** Normalisation writes each CRLF, CR or LF as one LF and keeps everything else. -/
theorem C05_normalize_spec (s : List Char) : normalizeLineEndings s = unixLines s :=
  crlf_step s

example : normalizeLineEndings "a\r\nb\rc\n\r\nd\r".toList = "a\nb\nc\n\nd\n".toList := by decide

/-- **C05.** No carriage return is left. -/
theorem C05_no_cr (s : List Char) : '\r' ∉ normalizeLineEndings s := by
  rw [C05_normalize_spec]; exact cr_not_mem_unixLines s

/-- **C05.** The characters other than line breaks are kept, in order. -/
theorem C05_content_preserved (s : List Char) :
    (normalizeLineEndings s).filter (fun c => c != '\n') =
      s.filter (fun c => c != '\n' && c != '\r') := by
  rw [C05_normalize_spec]; exact filter_unixLines s

/-- **C05.** Normalising twice changes nothing more. -/
theorem C05_idempotent (s : List Char) :
    normalizeLineEndings (normalizeLineEndings s) = normalizeLineEndings s := by
  rw [C05_normalize_spec (normalizeLineEndings s)]
  exact unixLines_of_no_cr (C05_no_cr s)

example : normalizeLineEndings "x\r\r\ny".toList ≠ "x\r\r\ny".toList ∧
    normalizeLineEndings "x\r\r\ny".toList = "x\n\ny".toList := by decide

/-- **C06.** Stripping never fails; it removes exactly one leading U+FEFF when there is one. -/
theorem C06_strip_bom (s : List Char) :
    (∀ t, s = '﻿' :: t → stripBom s = some (t, true)) ∧
    ((∀ t, s ≠ '﻿' :: t) → stripBom s = some (s, false)) := by
  constructor
  · rintro t rfl
    have h : [0xEF, 0xBB, 0xBF].isPrefixOf (utf8 ('﻿' :: t)) = true :=
      (utf8_bom_iff _).2 ⟨t, rfl⟩
    rw [stripBom, if_pos h]
    have := dropBytes_append ['﻿'] t
    have e : byteLen ['﻿'] = 3 := by decide
    rw [e] at this
    rw [show '﻿' :: t = ['﻿'] ++ t from rfl, this]
    rfl
  · intro h
    have h' : ¬ [0xEF, 0xBB, 0xBF].isPrefixOf (utf8 s) = true := by
      rw [utf8_bom_iff]
      rintro ⟨t, rfl⟩
      exact h t rfl
    rw [stripBom, if_neg h']

example : stripBom "﻿﻿a".toList = some ("﻿a".toList, true) ∧
    stripBom "ﻯa".toList = some ("ﻯa".toList, false) := by decide

/-- **C06.** A detected byte order mark is one of the five standard ones, it really is the
prefix of the data, the reported length is its length, and no longer mark matches. -/
theorem C06_detect_bom_sound (bytes : List Nat) (t : BomType) (n : Nat)
    (h : detectBom bytes = some (t, n)) :
    t.signature ∈ bomBytes ∧ t.signature <+: bytes ∧ n = t.signature.length ∧
    ∀ sig ∈ bomBytes, sig <+: bytes → sig.length ≤ n := by
  unfold detectBom at h
  simp only [List.isPrefixOf_iff_prefix] at h
  split at h
  · next hp =>
    simp at h; obtain ⟨rfl, rfl⟩ := h
    refine ⟨by decide, hp, rfl, ?_⟩
    intro sig hs _; simp [bomBytes] at hs; rcases hs with rfl | rfl | rfl | rfl | rfl <;> decide
  · next n1 =>
    split at h
    · next hp =>
      simp at h; obtain ⟨rfl, rfl⟩ := h
      refine ⟨by decide, hp, rfl, ?_⟩
      intro sig hs _; simp [bomBytes] at hs; rcases hs with rfl | rfl | rfl | rfl | rfl <;> decide
    · next n2 =>
      split at h
      · next hp =>
        simp at h; obtain ⟨rfl, rfl⟩ := h
        refine ⟨by decide, hp, rfl, ?_⟩
        intro sig hs hpre; simp [bomBytes] at hs
        rcases hs with rfl | rfl | rfl | rfl | rfl
        · decide
        · decide
        · decide
        · exact absurd hpre n1
        · exact absurd hpre n2
      · next n3 =>
        split at h
        · next hp =>
          simp at h; obtain ⟨rfl, rfl⟩ := h
          refine ⟨by decide, hp, rfl, ?_⟩
          intro sig hs hpre; simp [bomBytes] at hs
          rcases hs with rfl | rfl | rfl | rfl | rfl
          · exact absurd hpre n3
          · decide
          · decide
          · exact absurd hpre n1
          · exact absurd hpre n2
        · split at h
          · next hp =>
            simp at h; obtain ⟨rfl, rfl⟩ := h
            refine ⟨by decide, hp, rfl, ?_⟩
            intro sig hs hpre; simp [bomBytes] at hs
            rcases hs with rfl | rfl | rfl | rfl | rfl
            · exact absurd hpre n3
            · decide
            · decide
            · exact absurd hpre n1
            · exact absurd hpre n2
          · simp at h

example : detectBom [0xFF, 0xFE, 0, 0, 65] = some (.utf32le, 4) ∧
    detectBom [0xFF, 0xFE, 0, 65] = some (.utf16le, 2) := by decide

/-- **C06.** Nothing is detected only when no mark is a prefix. -/
theorem C06_detect_bom_complete (bytes : List Nat) (h : detectBom bytes = none) :
    ∀ sig ∈ bomBytes, ¬ sig <+: bytes := by
  unfold detectBom at h
  simp only [List.isPrefixOf_iff_prefix] at h
  intro sig hs hp
  simp [bomBytes] at hs
  rcases hs with rfl | rfl | rfl | rfl | rfl <;> simp [hp] at h <;> split at h <;> (try split at h) <;>
    (try split at h) <;> (try split at h) <;> simp at h

/-- **C07.** Truncation never panics; it returns a whole-character prefix that fits in the
limit, no longer such prefix exists, and the flag tells whether anything was cut. -/
theorem C07_truncate (s : List Char) (limit : Nat) :
    ∃ pre suf, s = pre ++ suf ∧
      truncateAtCharBoundary s limit = some (pre, decide (limit < byteLen s)) ∧
      byteLen pre ≤ limit ∧ (byteLen s ≤ limit → suf = []) ∧
      ∀ pre' suf', s = pre' ++ suf' → byteLen pre' ≤ limit → pre'.length ≤ pre.length := by
  by_cases hle : byteLen s ≤ limit
  · refine ⟨s, [], by simp, ?_, hle, fun _ => rfl, ?_⟩
    · simp [truncateAtCharBoundary, hle]
    · rintro pre' suf' rfl _; simp
  · obtain ⟨h1, h2, h3⟩ := findBoundary_spec s limit
    obtain ⟨pre, suf, rfl, hb⟩ := isBoundary_iff.1 h2
    refine ⟨pre, suf, rfl, ?_, by omega, fun h => absurd h hle, ?_⟩
    · simp only [truncateAtCharBoundary]
      rw [if_neg hle, ← hb, takeBytes_append]
      simp only [Option.map_some, Option.some.injEq, Prod.mk.injEq, true_and]
      exact (decide_eq_true (by omega)).symm
    · intro pre' suf' he hl
      have := h3 _ hl (isBoundary_iff.2 ⟨pre', suf', he, rfl⟩)
      rw [← hb] at this
      rcases Nat.lt_or_ge pre.length pre'.length with hlt | hge
      · exfalso
        obtain ⟨ex, rfl⟩ : pre <+: pre' :=
          List.prefix_of_prefix_length_le (List.prefix_append pre suf)
            (he ▸ List.prefix_append pre' suf') (by omega)
        cases ex with
        | nil => simp at hlt
        | cons c cs => have := utf8Size_pos c; simp at *; omega
      · exact hge

example : truncateAtCharBoundary "Hello 世界".toList 8 = some ("Hello ".toList, true) := by decide

/-- `str::len` as used above is the number of UTF-8 bytes. -/
theorem C07_byteLen_is_utf8_length (s : List Char) : (utf8 s).length = byteLen s := length_utf8 s

end Verif.Props
