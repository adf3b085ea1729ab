import Verif.Lemmas.Formats
import Verif.Lemmas.Time
/-!
# C30–C32 — tag stripping, SRT and WebVTT time stamps
-/
namespace Verif.Props
open Verif Verif.Formats Verif.Spec Verif.Spec.Fmt Verif.Time

/-! ## C30 -/

/-- **C30.** Stripping takes out exactly the blocks: each `{` up to the next `}`.  All other characters stay
in place. -/
theorem C30_strip_exact (s : Str) (t : Str) : stripAssTags s = t ↔ Stripped s t := by
  constructor
  · rintro rfl; exact stripLoop_spec _ _ (Nat.le_refl _)
  · intro h; exact (stripLoop_spec _ _ (Nat.le_refl _)).unique h

example : stripAssTags "a{\\b1}b{{x}c}{d".toList = "abc}{d".toList := by decide

/-- **C30.** The result contains no complete block. -/
theorem C30_no_block (s : Str) : NoBlock (stripAssTags s) :=
  ((C30_strip_exact s _).1 rfl).noBlock

/-- **C30.** Stripping twice equals stripping once. -/
theorem C30_idempotent (s : Str) : stripAssTags (stripAssTags s) = stripAssTags s :=
  (C30_strip_exact _ _).2 (stripped_of_noBlock (C30_no_block s))

/-- **C30.** Text without a complete block, in particular without braces, is not changed. -/
theorem C30_untouched (s : Str) : stripAssTags s = s ↔ NoBlock s := by
  constructor
  · intro h; rw [← h]; exact C30_no_block s
  · intro h; exact (C30_strip_exact _ _).2 (stripped_of_noBlock h)

example : NoBlock "plain } text { here".toList := (C30_untouched _).1 (by decide)

/-- **C30.** The conversion that keeps bold, italic and underline leaves no complete block either. -/
theorem C30_convert_no_block (s : Str) : NoBlock (convertAssFormatting s) := C30_no_block _

example : convertAssFormatting "{\\i1}hi{\\i0} {\\pos(1,2)}x".toList = "<i>hi</i> x".toList := by decide

/-! ## C31, C32: `FormatConverter` -/

theorem assTimeTo_stamp (sep : Char) {h m s cs : Nat} (hh : h < 2 ^ 32) (hm : m < 100) (hs : s < 100) (hc : cs < 100) :
    assTimeTo sep (assStamp h m s cs) = .ok (stamp sep h m s (cs * 10)) := by
  rw [assStamp_eq hm hs hc, stamp_eq hm hs (by omega)]
  unfold assTimeTo
  rw [List.append_assoc _ _ ('.' :: _), List.cons_append,
    splitOn3 (showNat_no _ _ (by decide)) (showPad_no _ _ _ (by decide))
    (by simp [showPad_no 2 s ':' (by decide), showPad_no 2 cs ':' (by decide)])]
  simp only [splitOn_append_sep _ (showPad_no 2 s '.' (by decide)), splitOn_of_not_mem (showPad_no 2 cs '.' (by decide)),
    parseU32_showNat hh, parseU32_showPad (w := 2) (show cs < u32Bound by unfold u32Bound; omega), Option.getD_some]
  rw [if_pos (by unfold u32Bound; omega)]

/-- **C31.** Exporting `H:MM:SS.cc` gives the SRT stamp of the same time. -/
theorem C31_export (h m s cs : Nat) (hh : h < 2 ^ 32) (hm : m < 100) (hs : s < 100) (hc : cs < 100) :
    assTimeToSrt (assStamp h m s cs) = .ok (stamp ',' h m s (cs * 10)) := assTimeTo_stamp ',' hh hm hs hc

example : assTimeToSrt "1:02:03.45".toList = .ok "01:02:03,450".toList := by decide

/-- **C32.** The same for WebVTT. -/
theorem C32_export (h m s cs : Nat) (hh : h < 2 ^ 32) (hm : m < 100) (hs : s < 100) (hc : cs < 100) :
    assTimeToWebvtt (assStamp h m s cs) = .ok (stamp '.' h m s (cs * 10)) := assTimeTo_stamp '.' hh hm hs hc

/-- **C31.** Importing an SRT stamp gives the ASS time, rounded down to centiseconds. -/
theorem C31_import (h m s ms : Nat) (hh : h < 2 ^ 32) (hm : m < 100) (hs : s < 100) (hms : ms < 1000) :
    parseSrtTime (stamp ',' h m s ms) = some (assStamp h m s (ms / 10)) := by
  rw [stamp_eq hm hs hms, ← assTime_eq hm hs (by omega)]
  unfold parseSrtTime
  have e : replaceAll [','] ['.'] (showPad 2 h ++ ':' :: showPad 2 m ++ ':' :: showPad 2 s ++ ',' :: showPad 3 ms) =
      showPad 2 h ++ ':' :: showPad 2 m ++ ':' :: (showPad 2 s ++ '.' :: showPad 3 ms) := by
    have k : ∀ w n, (showPad w n).map (fun c => if c = ',' then '.' else c) = showPad w n := fun w n => by
      rw [← replaceAll_char, replaceAll_char_of_not_mem (showPad_no _ _ _ (by decide))]
    rw [replaceAll_char]
    simp [k]
  rw [e, splitOn3 (showPad_no _ _ _ (by decide)) (showPad_no _ _ _ (by decide))
    (by simp [showPad_no 2 s ':' (by decide), showPad_no 3 ms ':' (by decide)])]
  simp only [parseU32_showPad (w := 2) (show h < u32Bound by unfold u32Bound; omega), parseU32_showPad (w := 2) (show m < u32Bound by unfold u32Bound; omega),
    parseSecMs_pad (w := 3) (show s < u32Bound by unfold u32Bound; omega) (show ms < u32Bound by unfold u32Bound; omega)]

example : parseSrtTime "01:02:03,459".toList = some "1:02:03.45".toList := by decide

/-- **C32.** Importing a WebVTT stamp gives the ASS time, rounded down to centiseconds. -/
theorem C32_import (h m s ms : Nat) (hh : h < 2 ^ 32) (hm : m < 100) (hs : s < 100) (hms : ms < 1000) :
    parseWebvttTime (stamp '.' h m s ms) = some (assStamp h m s (ms / 10)) := by
  rw [stamp_eq hm hs hms, ← assTime_eq hm hs (by omega)]
  unfold parseWebvttTime
  rw [List.append_assoc _ _ ('.' :: _), List.cons_append,
    splitOn3 (showPad_no _ _ _ (by decide)) (showPad_no _ _ _ (by decide))
    (by simp [showPad_no 2 s ':' (by decide), showPad_no 3 ms ':' (by decide)])]
  simp only [webvttRest, parseU32_showPad (w := 2) (show h < u32Bound by unfold u32Bound; omega), parseU32_showPad (w := 2) (show m < u32Bound by unfold u32Bound; omega),
    parseSecMs_pad (w := 3) (show s < u32Bound by unfold u32Bound; omega) (show ms < u32Bound by unfold u32Bound; omega), Option.getD_some]

/-- **C32.** A stamp without hours stands for zero hours. -/
theorem C32_import_short (m s ms : Nat) (hm : m < 100) (hs : s < 100) (hms : ms < 1000) :
    parseWebvttTime (shortStamp m s ms) = some (assStamp 0 m s (ms / 10)) := by
  rw [shortStamp_eq hm hs hms, ← assTime_eq hm hs (by omega)]
  unfold parseWebvttTime
  rw [List.append_assoc _ _ ('.' :: _), List.cons_append, splitOn_append_sep _ (showPad_no _ _ _ (by decide)),
    splitOn_of_not_mem (by simp [showPad_no 2 s ':' (by decide), showPad_no 3 ms ':' (by decide)])]
  simp only [webvttRest, parseU32_showPad (w := 2) (show m < u32Bound by unfold u32Bound; omega),
    parseSecMs_pad (w := 3) (show s < u32Bound by unfold u32Bound; omega) (show ms < u32Bound by unfold u32Bound; omega)]

example : parseWebvttTime "02:03.459".toList = some "0:02:03.45".toList := by decide

/-- The printed form of a centisecond count. -/
theorem formatAssTime_stamp (n : Nat) : formatAssTime n =
    assStamp (n / 360000) (n % 360000 / 6000) (n % 360000 % 6000 / 100) (n % 360000 % 6000 % 100) := by
  rw [assStamp_eq (by omega) (by omega) (by omega)]; rfl

/-- **C31.** For every 32-bit centisecond count: exporting its printed form to SRT and importing it again
gives the same text. -/
theorem C31_roundtrip (n : Nat) (hn : n < 2 ^ 32) :
    ∃ t, assTimeToSrt (formatAssTime n) = .ok t ∧ parseSrtTime t = some (formatAssTime n) := by
  rw [formatAssTime_stamp]
  refine ⟨_, C31_export _ _ _ _ (by omega) (by omega) (by omega) (by omega), ?_⟩
  rw [C31_import _ _ _ _ (by omega) (by omega) (by omega) (by omega)]
  simp

/-- **C32.** The same for WebVTT. -/
theorem C32_roundtrip (n : Nat) (hn : n < 2 ^ 32) :
    ∃ t, assTimeToWebvtt (formatAssTime n) = .ok t ∧ parseWebvttTime t = some (formatAssTime n) := by
  rw [formatAssTime_stamp]
  refine ⟨_, C32_export _ _ _ _ (by omega) (by omega) (by omega) (by omega), ?_⟩
  rw [C32_import _ _ _ _ (by omega) (by omega) (by omega) (by omega)]
  simp

example : assTimeToWebvtt "1:02:03.45".toList = .ok "01:02:03.450".toList ∧
    parseWebvttTime "01:02:03.450".toList = some "1:02:03.45".toList := by decide

/-- **C31, disagreement.** The time parser accepts this start time (a fraction with many digits), and
exporting it to SRT panics: the multiplication by ten overflows. -/
theorem C31_export_total_violated :
    ¬ ∀ (s : Str) (v : Nat), parseAssTime s = .ok v → ∃ t, assTimeToSrt s = .ok t := by
  intro h
  obtain ⟨t, ht⟩ := h "0:00:00.429496730".toList 429496730 (by decide)
  have : assTimeToSrt "0:00:00.429496730".toList = .panic := by decide
  rw [this] at ht; simp at ht

/-- Reading back what the importer prints. -/
theorem parse_assTime {h m s c : Nat} (hh : h < 2 ^ 32) (hm : m < 60) (hs : s < 60)
    (hv : h * 360000 + m * 6000 + s * 100 + c < 2 ^ 32) :
    parseAssTime (assTime h m s c) = .ok (h * 360000 + m * 6000 + s * 100 + c) := by
  have hu : ∀ w k, k < 2 ^ 32 → U32Text (showPad w k) k := fun w k hk =>
    ⟨hk, Or.inl ⟨showPad_ne_nil w k, showPad_digits w k, ofDigitChars_showPad w k⟩⟩
  have hraw : rawValue (assTime h m s c) = some (h * 360000 + m * 6000 + s * 100 + c) := by
    rw [rawValue_iff]
    exact ⟨showNat h, showPad 2 m, showPad 2 s, '.' :: showPad 2 c, h, m, s, c, by simp [assTime],
      ⟨by omega, Or.inl ⟨showNat_ne_nil _, showNat_digits _, ofDigitChars_showNat _⟩⟩, hu _ _ (by omega), hu _ _ (by omega),
      Or.inr (Or.inl ⟨_, rfl, ⟨showPad_ne_nil _ _, showPad_digits _ _, ofDigitChars_showPad _ _⟩, by omega⟩), hm, hs, rfl⟩
  rw [parse_eq_rawValue, hraw]
  simp only []
  rw [if_pos (by unfold u32Bound; omega)]

/-- What the exporter makes of any accepted time. -/
theorem assTimeTo_text (sep : Char) {s : Str} {v : Nat} (h : TimeText s v) (hv : v < 429496730) :
    ∃ m sec H M S F, assTimeTo sep s = .ok (showPad 2 H ++ ':' :: m ++ ':' :: sec ++ sep :: showPad 3 (F * 10)) ∧
      U32Text m M ∧ U32Text sec S ∧ H < 2 ^ 32 ∧ M < 60 ∧ S < 60 ∧ v = H * 360000 + M * 6000 + S * 100 + F := by
  obtain ⟨h, m, sec, frac, H, M, S, F, rfl, hH, hM, hS, hF, hm60, hs60, rfl⟩ := h
  have hc3 : ':' ∉ sec ++ frac := by simp [hF.no_colon, hS.no_colon ':' (by decide) (by decide)]
  refine ⟨m, sec, H, M, S, F, ?_, hM, hS, hH.1, hm60, hs60, rfl⟩
  unfold assTimeTo
  rw [show h ++ ':' :: m ++ ':' :: sec ++ frac = h ++ ':' :: m ++ ':' :: (sec ++ frac) by simp,
    splitOn3 (hH.no_colon ':' (by decide) (by decide)) (hM.no_colon ':' (by decide) (by decide)) hc3]
  have hdot : '.' ∉ sec := hS.no_colon '.' (by decide) (by decide)
  have key : ∀ cs : Str, parseU32 cs = some F → (if (parseU32 cs).getD 0 * 10 < u32Bound then
        Outcome.ok (showPad 2 ((parseU32 h).getD 0) ++ ':' :: m ++ ':' :: sec ++ sep :: showPad 3 ((parseU32 cs).getD 0 * 10))
      else .panic) = .ok (showPad 2 H ++ ':' :: m ++ ':' :: sec ++ sep :: showPad 3 (F * 10)) := by
    intro cs hcs
    rw [hcs, parseU32_iff.2 hH, Option.getD_some, Option.getD_some, if_pos (by unfold u32Bound; omega)]
  rcases hF with ⟨rfl, rfl⟩ | ⟨ds, rfl, hn, hb⟩ | ⟨ds, junk, rfl, _, hn, hb⟩
  · simp only [List.append_nil, splitOn_of_not_mem hdot]
    exact key _ (by decide)
  · simp only [splitOn_append_sep _ hdot, splitOn_of_not_mem (not_isDigit_mem hn.2.1 (show Char.isDigit '.' = false by decide))]
    exact key _ (parseU32_iff.2 ⟨hb, Or.inl hn⟩)
  · simp only [List.cons_append, splitOn_append_sep _ hdot, splitOn_append_sep _ (not_isDigit_mem hn.2.1 (show Char.isDigit '.' = false by decide))]
    exact key _ (parseU32_iff.2 ⟨hb, Or.inl hn⟩)

theorem parseSecMs_text {sec : Str} {w S ms : Nat} (hS : U32Text sec S) (hm : ms < u32Bound) :
    parseSecMs (sec ++ '.' :: showPad w ms) = some (S, ms / 10) := by
  unfold parseSecMs
  rw [splitOn_append_sep _ (hS.no_colon '.' (by decide) (by decide)), splitOn_of_not_mem (showPad_no _ _ _ (by decide))]
  simp only [parseU32_iff.2 hS, parseU32_showPad hm, Option.getD_some]

/-- **C31.** However a time below 4294967.30 seconds is written, exporting it to SRT and importing it back
gives a text with the same value.
Missing: times from 4294967.30 seconds on, for which the export overflows (`C31_export_total_violated`). -/
theorem C31_value_roundtrip_partial (s : Str) (v : Nat) (h : parseAssTime s = .ok v) (hv : v < 429496730) :
    ∃ t u, assTimeToSrt s = .ok t ∧ parseSrtTime t = some u ∧ parseAssTime u = .ok v := by
  have ht : TimeText s v := by
    rw [parse_eq_rawValue] at h
    split at h
    · simp at h
    · next v' e =>
      split at h
      · injection h with h; subst h; exact rawValue_iff.1 e
      · simp at h
  obtain ⟨m, sec, H, M, S, F, e, hM, hS, hH, hm60, hs60, rfl⟩ := assTimeTo_text ',' ht hv
  refine ⟨_, assTime H M S F, e, ?_, parse_assTime hH hm60 hs60 (by omega)⟩
  unfold parseSrtTime
  have k : ∀ x : Str, ',' ∉ x → x.map (fun c => if c = ',' then '.' else c) = x := fun x hx => by
    rw [← replaceAll_char, replaceAll_char_of_not_mem hx]
  have e : replaceAll [','] ['.'] (showPad 2 H ++ ':' :: m ++ ':' :: sec ++ ',' :: showPad 3 (F * 10)) =
      showPad 2 H ++ ':' :: m ++ ':' :: (sec ++ '.' :: showPad 3 (F * 10)) := by
    rw [replaceAll_char]
    simp [k _ (hM.no_colon ',' (by decide) (by decide)), k _ (hS.no_colon ',' (by decide) (by decide)),
      k _ (showPad_no 2 H ',' (by decide)), k _ (showPad_no 3 (F * 10) ',' (by decide))]
  rw [e, splitOn3 (showPad_no _ _ _ (by decide)) (hM.no_colon ':' (by decide) (by decide))
    (by simp [hS.no_colon ':' (by decide) (by decide), showPad_no 3 (F * 10) ':' (by decide)])]
  simp only [parseU32_showPad (w := 2) (show H < u32Bound from hH), parseU32_iff.2 hM,
    parseSecMs_text (w := 3) hS (show F * 10 < u32Bound by unfold u32Bound; omega)]
  simp

example : parseAssTime "+1:2:3.4".toList = .ok 372304 ∧ assTimeToSrt "+1:2:3.4".toList = .ok "01:2:3,040".toList ∧
    parseSrtTime "01:2:3,040".toList = some "1:02:03.04".toList := by decide

/-- **C32.** The same for WebVTT.
Missing: times from 4294967.30 seconds on, for which the export overflows as for SRT; the claim itself, about the usual time form,
is proved in full. -/
theorem C32_value_roundtrip_partial (s : Str) (v : Nat) (h : parseAssTime s = .ok v) (hv : v < 429496730) :
    ∃ t u, assTimeToWebvtt s = .ok t ∧ parseWebvttTime t = some u ∧ parseAssTime u = .ok v := by
  have ht : TimeText s v := by
    rw [parse_eq_rawValue] at h
    split at h
    · simp at h
    · next v' e =>
      split at h
      · injection h with h; subst h; exact rawValue_iff.1 e
      · simp at h
  obtain ⟨m, sec, H, M, S, F, e, hM, hS, hH, hm60, hs60, rfl⟩ := assTimeTo_text '.' ht hv
  refine ⟨_, assTime H M S F, e, ?_, parse_assTime hH hm60 hs60 (by omega)⟩
  unfold parseWebvttTime
  rw [List.append_assoc _ _ ('.' :: _), List.cons_append,
    splitOn3 (showPad_no _ _ _ (by decide)) (hM.no_colon ':' (by decide) (by decide))
    (by simp [hS.no_colon ':' (by decide) (by decide), showPad_no 3 (F * 10) ':' (by decide)])]
  simp only [webvttRest, parseU32_showPad (w := 2) (show H < u32Bound from hH), parseU32_iff.2 hM,
    parseSecMs_text (w := 3) hS (show F * 10 < u32Bound by unfold u32Bound; omega), Option.getD_some]
  simp

/-! ## `SrtFormat` and `WebVttFormat` -/

theorem fmtFormat_stamp (sep : Char) {h m s cs : Nat} (hh : h < 2 ^ 32) (hm : m < 100) (hs : s < 100) (hc : cs < 100) :
    fmtFormat sep (assStamp h m s cs) = .ok (stamp sep h m s (cs * 10)) := by
  rw [assStamp_eq hm hs hc, stamp_eq hm hs (by omega)]
  unfold fmtFormat
  have ht : trim (showNat h ++ ':' :: showPad 2 m ++ ':' :: showPad 2 s ++ '.' :: showPad 2 cs) =
      showNat h ++ ':' :: showPad 2 m ++ ':' :: showPad 2 s ++ '.' :: showPad 2 cs := by
    have := trim_digits (x := ':' :: showPad 2 m ++ ':' :: showPad 2 s ++ ['.']) (showNat_ne_nil h) (showPad_ne_nil 2 cs)
      (showNat_digits _) (showPad_digits _ _)
    simpa using this
  rw [ht, splitOnce_append _ (by simp [showNat_no h '.' (by decide), showPad_no 2 m '.' (by decide), showPad_no 2 s '.' (by decide)])]
  simp only [parseU32_showPad (w := 2) (show cs < u32Bound by unfold u32Bound; omega)]
  rw [if_pos (by unfold u32Bound; omega), splitOn3 (showNat_no _ _ (by decide)) (showPad_no _ _ _ (by decide)) (showPad_no _ _ _ (by decide))]
  simp only [parseU32_showNat hh]

/-- **C31.** The SRT exporter of the format registry writes the same stamps. -/
theorem C31_format_export (h m s cs : Nat) (hh : h < 2 ^ 32) (hm : m < 100) (hs : s < 100) (hc : cs < 100) :
    fmtFormat ',' (assStamp h m s cs) = .ok (stamp ',' h m s (cs * 10)) := fmtFormat_stamp ',' hh hm hs hc

/-- **C32.** The same for WebVTT. -/
theorem C32_format_export (h m s cs : Nat) (hh : h < 2 ^ 32) (hm : m < 100) (hs : s < 100) (hc : cs < 100) :
    fmtFormat '.' (assStamp h m s cs) = .ok (stamp '.' h m s (cs * 10)) := fmtFormat_stamp '.' hh hm hs hc

example : fmtFormat ',' " 1:02:03.45".toList = .ok "01:02:03,450".toList := by decide

theorem stamp_trim (sep : Char) (h m s ms : Nat) :
    trim (showPad 2 h ++ ':' :: showPad 2 m ++ ':' :: showPad 2 s ++ sep :: showPad 3 ms) =
      showPad 2 h ++ ':' :: showPad 2 m ++ ':' :: showPad 2 s ++ sep :: showPad 3 ms := by
  have := trim_digits (x := ':' :: showPad 2 m ++ ':' :: showPad 2 s ++ [sep]) (showPad_ne_nil 2 h) (showPad_ne_nil 3 ms)
    (showPad_digits _ _) (showPad_digits _ _)
  simpa using this

theorem dropZero_append {a b : Str} (h : 2 ≤ a.length) : dropZero (a ++ b) = dropZero a ++ b := by
  match a, h with
  | x :: y :: t, _ =>
    unfold dropZero
    by_cases hx : x = '0'
    · subst hx; rfl
    · simp [hx]

theorem showPad_length (w n : Nat) : w ≤ (showPad w n).length := by
  unfold showPad; simp; omega

/-- **C31.** The SRT importer of the format registry reads them back, rounded down to centiseconds. -/
theorem C31_format_import (h m s ms : Nat) (hm : m < 100) (hs : s < 100) (hms : ms < 1000) :
    fmtParseSrt (stamp ',' h m s ms) = some (assStamp h m s (ms / 10)) := by
  rw [stamp_eq hm hs hms, assStamp_eq hm hs (by omega)]
  unfold fmtParseSrt
  rw [stamp_trim, splitOnce_append _ (by simp [showPad_no 2 h ',' (by decide), showPad_no 2 m ',' (by decide), showPad_no 2 s ',' (by decide)])]
  simp only [parseU32_showPad (w := 3) (show ms < u32Bound by unfold u32Bound; omega), List.append_assoc]
  rw [dropZero_append (showPad_length _ _), dropZero_pad]
  simp

/-- **C32.** The WebVTT importer of the format registry, likewise. -/
theorem C32_format_import (h m s ms : Nat) (hm : m < 100) (hs : s < 100) (hms : ms < 1000) :
    fmtParseVtt (stamp '.' h m s ms) = some (assStamp h m s (ms / 10)) := by
  rw [stamp_eq hm hs hms, assStamp_eq hm hs (by omega)]
  unfold fmtParseVtt
  rw [stamp_trim, splitOn_append_sep _ (by simp [showPad_no 2 h '.' (by decide), showPad_no 2 m '.' (by decide), showPad_no 2 s '.' (by decide)]),
    splitOn_of_not_mem (showPad_no _ _ _ (by decide))]
  simp only [parseU32_showPad (w := 3) (show ms < u32Bound by unfold u32Bound; omega),
    splitOn3 (showPad_no 2 h ':' (by decide)) (showPad_no 2 m ':' (by decide)) (showPad_no 2 s ':' (by decide)), dropZero_pad]

/-- **C32.** And the short form. -/
theorem C32_format_import_short (m s ms : Nat) (hm : m < 100) (hs : s < 100) (hms : ms < 1000) :
    fmtParseVtt (shortStamp m s ms) = some (assStamp 0 m s (ms / 10)) := by
  rw [shortStamp_eq hm hs hms, assStamp_eq hm hs (by omega)]
  unfold fmtParseVtt
  have ht : trim (showPad 2 m ++ ':' :: showPad 2 s ++ '.' :: showPad 3 ms) = showPad 2 m ++ ':' :: showPad 2 s ++ '.' :: showPad 3 ms := by
    have := trim_digits (x := ':' :: showPad 2 s ++ ['.']) (showPad_ne_nil 2 m) (showPad_ne_nil 3 ms)
      (showPad_digits _ _) (showPad_digits _ _)
    simpa using this
  rw [ht, splitOn_append_sep _ (by simp [showPad_no 2 m '.' (by decide), showPad_no 2 s '.' (by decide)]),
    splitOn_of_not_mem (showPad_no _ _ _ (by decide))]
  simp only [parseU32_showPad (w := 3) (show ms < u32Bound by unfold u32Bound; omega), splitOn_append_sep _ (showPad_no 2 m ':' (by decide)),
    splitOn_of_not_mem (showPad_no 2 s ':' (by decide))]
  rw [showNat_small (by decide)]
  rfl

example : fmtParseVtt "02:03.459".toList = some "0:02:03.45".toList ∧
    fmtParseSrt "123:02:03,459 ".toList = some "123:02:03.45".toList := by decide

/-- **C31.** Round trip through the registry's SRT format. -/
theorem C31_format_roundtrip (n : Nat) (hn : n < 2 ^ 32) :
    ∃ t, fmtFormat ',' (formatAssTime n) = .ok t ∧ fmtParseSrt t = some (formatAssTime n) := by
  rw [formatAssTime_stamp]
  refine ⟨_, C31_format_export _ _ _ _ (by omega) (by omega) (by omega) (by omega), ?_⟩
  rw [C31_format_import _ _ _ _ (by omega) (by omega) (by omega)]
  simp

/-- **C32.** Round trip through the registry's WebVTT format. -/
theorem C32_format_roundtrip (n : Nat) (hn : n < 2 ^ 32) :
    ∃ t, fmtFormat '.' (formatAssTime n) = .ok t ∧ fmtParseVtt t = some (formatAssTime n) := by
  rw [formatAssTime_stamp]
  refine ⟨_, C32_format_export _ _ _ _ (by omega) (by omega) (by omega) (by omega), ?_⟩
  rw [C32_format_import _ _ _ _ (by omega) (by omega) (by omega)]
  simp

end Verif.Props
