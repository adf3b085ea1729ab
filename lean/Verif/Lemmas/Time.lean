import Verif.Model.Time
import Verif.Spec.Time
import Verif.Lemmas.Str
namespace Verif.Time
open Verif Verif.Spec

theorem parseU32_iff {s : Str} {v : Nat} : parseU32 s = some v ↔ U32Text s v := by
  constructor
  · intro h
    have hb : v < u32Bound ∧ ∃ ds, (s = ds ∨ s = '+' :: ds) ∧ ds ≠ [] ∧ digitsVal 10 0 ds = some v := by
      unfold parseU32 parseUnsigned at h
      simp only at h
      split at h
      · simp at h
      · next hne =>
        split at h
        · next v' hv =>
          split at h
          · next hlt =>
            simp at h; subst h
            refine ⟨hlt, ?_⟩
            split at hv
            · next t => exact ⟨t, Or.inr rfl, fun e => hne (by simp [e]), hv⟩
            · next t _ => exact ⟨s, Or.inl rfl, fun e => hne (by simp [e]), hv⟩
          · simp at h
        · simp at h
    obtain ⟨hlt, ds, hs, hne, hv⟩ := hb
    have := digits_of_digitsVal hv
    refine ⟨hlt, ?_⟩
    rcases hs with rfl | rfl
    · exact Or.inl ⟨hne, this.1, this.2⟩
    · exact Or.inr ⟨ds, rfl, hne, this.1, this.2⟩
  · rintro ⟨hb, ⟨hne, hd, rfl⟩ | ⟨ds, rfl, hne, hd, rfl⟩⟩
    · exact parseU32_digits hne hd hb
    · unfold parseU32 parseUnsigned
      cases ds with
      | nil => exact absurd rfl hne
      | cons c cs => 
        simp only [digitsVal_of_digits hd]
        exact if_pos hb

theorem _root_.Verif.Spec.U32Text.no_colon {s : Str} {v : Nat} (h : U32Text s v) (c : Char)
    (hc : c.isDigit = false) (hp : c ≠ '+') : c ∉ s := by
  obtain ⟨_, ⟨_, hd, _⟩ | ⟨ds, rfl, _, hd, _⟩⟩ := h
  · exact not_isDigit_mem hd hc
  · simp [hp]; exact not_isDigit_mem hd hc

theorem allDigits_iff {s : Str} : allDigits s = true ↔ ∀ c ∈ s, c.isDigit := by
  simp only [allDigits, List.all_eq_true]
  constructor
  · intro h c hc
    have := h c hc
    simp only [Bool.and_eq_true, decide_eq_true_eq] at this
    simp only [Char.isDigit, Bool.and_eq_true, decide_eq_true_eq]
    exact this
  · intro h c hc
    have := h c hc
    simp only [Char.isDigit, Bool.and_eq_true, decide_eq_true_eq] at this
    simp only [Bool.and_eq_true, decide_eq_true_eq]
    exact this

theorem _root_.Verif.Spec.Numeral.parse {ds : Str} {v : Nat} (h : Numeral ds v) (hb : v < 2 ^ 32) :
    parseFrac (ds :: r) = some v := by
  obtain ⟨hne, hd, rfl⟩ := h
  simp only [parseFrac]
  rw [if_neg]
  · exact parseU32_digits hne hd hb
  · simp [hne, allDigits_iff]; exact hd

theorem parseFrac_some {ds : Str} {r : List Str} {v : Nat} (h : parseFrac (ds :: r) = some v) :
    Numeral ds v ∧ v < 2 ^ 32 := by
  simp only [parseFrac] at h
  split at h
  · simp at h
  · next hc =>
    simp only [Bool.or_eq_true, List.isEmpty_iff, Bool.not_eq_true', not_or, Bool.not_eq_false] at hc
    have hd := allDigits_iff.1 hc.2
    have := parseUnsigned_digits (bound := u32Bound) hc.1 hd
    rw [parseU32, this] at h
    split at h
    · next hlt => simp at h; subst h; exact ⟨⟨hc.1, hd, rfl⟩, hlt⟩
    · simp at h

/-- The seconds part: splitting at dots and reading it agrees with the grammar. -/
theorem sec_iff {t : Str} {S F : Nat} (ht : ':' ∉ t) :
    (∃ s0 rest, splitOn '.' t = s0 :: rest ∧ parseU32 s0 = some S ∧ parseFrac rest = some F) ↔
    (∃ sec frac, t = sec ++ frac ∧ U32Text sec S ∧ FracText frac F) := by
  constructor
  · rintro ⟨s0, rest, hsp, hS, hF⟩
    have hj := joinSep_splitOn '.' t
    rw [hsp] at hj
    cases rest with
    | nil =>
      simp only [joinSep] at hj
      simp [parseFrac] at hF
      exact ⟨s0, [], by simp [hj], parseU32_iff.1 hS, Or.inl ⟨rfl, hF.symm⟩⟩
    | cons ds r =>
      obtain ⟨hn, hb⟩ := parseFrac_some hF
      rw [joinSep_cons (by simp)] at hj
      cases r with
      | nil =>
        simp only [joinSep] at hj
        exact ⟨s0, '.' :: ds, hj.symm, parseU32_iff.1 hS, Or.inr (Or.inl ⟨ds, rfl, hn, hb⟩)⟩
      | cons a r' =>
        rw [joinSep_cons (by simp)] at hj
        refine ⟨s0, '.' :: ds ++ '.' :: joinSep '.' (a :: r'), by rw [← hj]; simp, parseU32_iff.1 hS,
          Or.inr (Or.inr ⟨ds, _, rfl, ?_, hn, hb⟩)⟩
        intro hm
        apply ht
        rw [← hj]
        simp [hm]
  · rintro ⟨sec, frac, rfl, hS, hF⟩
    have hdot : '.' ∉ sec := hS.no_colon '.' (by decide) (by decide)
    rcases hF with ⟨rfl, rfl⟩ | ⟨ds, rfl, hn, hb⟩ | ⟨ds, junk, rfl, _, hn, hb⟩
    · exact ⟨sec, [], by simpa using splitOn_of_not_mem hdot, parseU32_iff.2 hS, rfl⟩
    · exact ⟨sec, _, splitOn_append_sep ds hdot, parseU32_iff.2 hS, by
        rw [splitOn_of_not_mem (not_isDigit_mem hn.2.1 (by decide))]
        exact hn.parse hb⟩
    · refine ⟨sec, _, by rw [List.cons_append]; exact splitOn_append_sep _ hdot, parseU32_iff.2 hS, ?_⟩
      rw [splitOn_append_sep junk (not_isDigit_mem hn.2.1 (by decide))]
      exact hn.parse hb

theorem _root_.Verif.Spec.FracText.no_colon {s : Str} {v : Nat} (h : FracText s v) : ':' ∉ s := by
  rcases h with ⟨rfl, _⟩ | ⟨ds, rfl, hn, _⟩ | ⟨ds, junk, rfl, hj, hn, _⟩
  · simp
  · simp; exact not_isDigit_mem hn.2.1 (by decide)
  · simp [hj]; exact not_isDigit_mem hn.2.1 (by decide)

/-- The value computed before the final range check. -/
def rawValue (s : Str) : Option Nat :=
  match splitOn ':' s with
  | [h, m, sec] =>
    match parseU32 h, parseU32 m, splitOn '.' sec with
    | some hours, some minutes, s0 :: rest =>
      match parseU32 s0, parseFrac rest with
      | some seconds, some cs =>
        if minutes < 60 ∧ seconds < 60 then
          some (hours * 360000 + minutes * 6000 + seconds * 100 + cs)
        else none
      | _, _ => none
    | _, _, _ => none
  | _ => none

theorem parse_eq_rawValue (s : Str) :
    parseAssTime s = match rawValue s with
      | none => .err
      | some v => if v < u32Bound then .ok v else .overflow := by
  unfold parseAssTime rawValue
  cases hs : splitOn ':' s with
  | nil => rfl
  | cons h t =>
    cases t with
    | nil => rfl
    | cons m t =>
      cases t with
      | nil => rfl
      | cons sec t =>
        cases t with
        | cons _ _ => rfl
        | nil =>
          simp only
          cases parseU32 h <;> cases parseU32 m <;> cases splitOn '.' sec <;> simp only
          rename_i s0 rest
          cases parseU32 s0 <;> cases parseFrac rest <;> simp only
          rename_i H M S F
          by_cases hM : M < 60 <;> by_cases hS : S < 60 <;>
            simp only [hM, hS, ge_iff_le, Nat.not_le.2, if_true, if_false, and_self, and_true, and_false] <;>
            simp_all

theorem rawValue_iff {s : Str} {v : Nat} : rawValue s = some v ↔ TimeText s v := by
  constructor
  · intro h
    unfold rawValue at h
    split at h
    · next h' m sec hsp =>
      have hj := joinSep_splitOn ':' s
      rw [hsp] at hj
      simp only [joinSep] at hj
      have hnc : ':' ∉ sec := not_mem_of_mem_splitOn (s := s) (by rw [hsp]; simp)
      split at h
      · next H M s0 rest hH hM hsec =>
        split at h
        · next S F hS hF =>
          split at h
          · next hr =>
            simp at h
            obtain ⟨sc, frac, rfl, hS', hF'⟩ := (sec_iff hnc).1 ⟨s0, rest, hsec, hS, hF⟩
            exact ⟨h', m, sc, frac, H, M, S, F, by rw [← hj]; simp, parseU32_iff.1 hH,
              parseU32_iff.1 hM, hS', hF', hr.1, hr.2, h.symm⟩
          · simp at h
        · simp at h
      · simp at h
    · simp at h
  · rintro ⟨h, m, sec, frac, H, M, S, F, rfl, hH, hM, hS, hF, hm60, hs60, rfl⟩
    have hc1 : ':' ∉ h := hH.no_colon ':' (by decide) (by decide)
    have hc2 : ':' ∉ m := hM.no_colon ':' (by decide) (by decide)
    have hc3 : ':' ∉ sec ++ frac := by
      simp [hF.no_colon, hS.no_colon ':' (by decide) (by decide)]
    obtain ⟨s0, rest, hsp, h1, h2⟩ := (sec_iff (S := S) (F := F) hc3).2 ⟨sec, frac, rfl, hS, hF⟩
    have : splitOn ':' (h ++ ':' :: m ++ ':' :: sec ++ frac) = [h, m, sec ++ frac] := by
      have e : h ++ ':' :: m ++ ':' :: sec ++ frac = h ++ ':' :: (m ++ ':' :: (sec ++ frac)) := by simp
      rw [e, splitOn_append_sep _ hc1, splitOn_append_sep _ hc2, splitOn_of_not_mem hc3]
    unfold rawValue
    rw [this]
    simp only [parseU32_iff.2 hH, parseU32_iff.2 hM, hsp, h1, h2, hm60, hs60]
    simp

end Verif.Time
