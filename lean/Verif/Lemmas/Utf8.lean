import Verif.Model.Utf8
import Verif.Spec.Utf8
import Verif.Lemmas.Bytes
namespace Verif.Utf8
open Verif Verif.Spec

theorem replaceAux_single (a : Char) (r s : Str) :
    replaceAux [a] r 0 s = s.flatMap (fun c => if c = a then r else [c]) := by
  induction s with
  | nil => rfl
  | cons c cs ih =>
    simp only [replaceAux, stripPrefix, List.flatMap_cons]
    by_cases h : a = c
    · simp [h] at ih ⊢; exact ih
    · have h' : ¬ c = a := fun e => h e.symm
      simp only [h, h', if_false]; rw [ih]; rfl

theorem crlf_step (s : Str) :
    replaceAux ['\r'] ['\n'] 0 (replaceAux ['\r', '\n'] ['\n'] 0 s) = unixLines s := by
  simp only [replaceAux_single]
  induction s using unixLines.induct with
  | case1 => rfl
  | case2 => rfl
  | case3 r ih =>
    simp only [unixLines, replaceAux, stripPrefix, if_true, List.length_cons, List.length_nil,
      List.cons_append, List.nil_append, List.flatMap_cons] 
    simp
    exact ih
  | case4 c r hne ih =>
    have hc : c ≠ '\n' := hne
    have hs : stripPrefix ['\r', '\n'] ('\r' :: c :: r) = none := by
      simp [stripPrefix, Ne.symm hc]
    rw [show unixLines ('\r' :: c :: r) = '\n' :: unixLines (c :: r) by
      rw [unixLines]; exact hne]
    rw [replaceAux, hs]
    simp only [List.flatMap_cons, if_true]
    rw [ih]; rfl
  | case5 c r h1 h2 h3 ih =>
    have hc : c ≠ '\r' := by
      intro e; subst e
      cases r with
      | nil => exact h1 rfl rfl
      | cons d r => exact h3 d r rfl rfl
    have hs : stripPrefix ['\r', '\n'] (c :: r) = none := by
      simp [stripPrefix, Ne.symm hc]
    rw [unixLines, replaceAux, hs]
    · simp only [List.flatMap_cons, hc, if_false]
      rw [ih]; rfl
    · exact h1
    · exact h2
    · exact h3

theorem cr_not_mem_unixLines (s : Str) : '\r' ∉ unixLines s := by
  induction s using unixLines.induct with
  | case1 => simp [unixLines]
  | case2 => simp [unixLines]
  | case3 r ih => simp [unixLines, ih]
  | case4 c r hne ih =>
    rw [unixLines]
    · simp only [List.mem_cons, not_or]; exact ⟨by decide, by simpa using ih⟩
    · exact hne
  | case5 c r h1 h2 h3 ih =>
    have hc : c ≠ '\r' := by
      intro e; subst e
      cases r with
      | nil => exact h1 rfl rfl
      | cons d r => exact h3 d r rfl rfl
    rw [unixLines]
    · simp only [List.mem_cons, not_or]; exact ⟨Ne.symm hc, ih⟩
    · exact h1
    · exact h2
    · exact h3

theorem unixLines_of_no_cr {s : Str} (h : '\r' ∉ s) : unixLines s = s := by
  induction s with
  | nil => rfl
  | cons c r ih =>
    have hc : c ≠ '\r' := by intro e; apply h; simp [e]
    rw [unixLines, ih (by intro e; apply h; simp [e])]
    · intro e _; exact hc e
    · intro r' e _; exact hc e
    · intro d r' e _; exact hc e

theorem filter_unixLines (s : Str) :
    (unixLines s).filter (fun c => c != '\n') = s.filter (fun c => c != '\n' && c != '\r') := by
  induction s using unixLines.induct with
  | case1 => rfl
  | case2 => rfl
  | case3 r ih => simpa [unixLines] using ih
  | case4 c r hne ih =>
    rw [unixLines]
    · simpa using ih
    · exact hne
  | case5 c r h1 h2 h3 ih =>
    have hc : c ≠ '\r' := by
      intro e; subst e
      cases r with
      | nil => exact h1 rfl rfl
      | cons d r => exact h3 d r rfl rfl
    rw [unixLines]
    · simp only [List.filter_cons, ih]
      simp [hc]
    · exact h1
    · exact h2
    · exact h3

/-- A text whose encoding starts with the UTF-8 BOM starts with U+FEFF. -/
theorem utf8_bom_iff (s : Str) :
    [0xEF, 0xBB, 0xBF].isPrefixOf (utf8 s) = true ↔ ∃ t, s = '﻿' :: t := by
  constructor
  · intro h
    rw [List.isPrefixOf_iff_prefix] at h
    cases s with
    | nil => simp [utf8] at h
    | cons c t =>
      rw [utf8_cons] at h
      refine ⟨t, ?_⟩
      congr 1
      apply Char.ext
      apply UInt32.toNat.inj
      change c.toNat = 0xFEFF
      have h0 : (0xEF :: 0xBB :: 0xBF :: []) <+: utf8Enc c ++ utf8 t := h
      unfold utf8Enc at h0
      simp only at h0
      have e : c.toNat = c.val.toNat := rfl
      split at h0
      · simp [List.cons_prefix_cons] at h0; omega
      · split at h0
        · simp [List.cons_prefix_cons] at h0; omega
        · split at h0
          · simp [List.cons_prefix_cons] at h0; omega
          · simp [List.cons_prefix_cons] at h0; omega
  · rintro ⟨t, rfl⟩
    rw [List.isPrefixOf_iff_prefix, utf8_cons]
    exact List.prefix_append _ _

theorem findBoundary_spec (s : Str) (n : Nat) :
    findBoundary s n ≤ n ∧ isBoundary s (findBoundary s n) = true ∧
    ∀ k, k ≤ n → isBoundary s k = true → k ≤ findBoundary s n := by
  induction n with
  | zero =>
    refine ⟨Nat.le_refl _, ?_, fun k hk _ => ?_⟩
    · simp only [findBoundary]; cases s <;> rfl
    · simp [findBoundary] at hk ⊢; exact hk
  | succ n ih =>
    simp only [findBoundary]
    split
    · next h => exact ⟨Nat.le_refl _, h, fun k hk _ => hk⟩
    · next h =>
      refine ⟨by omega, ih.2.1, fun k hk hb => ?_⟩
      by_cases e : k = n + 1
      · subst e; exact absurd hb h
      · exact ih.2.2 k (by omega) hb

end Verif.Utf8
