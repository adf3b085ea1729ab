import Verif.Lemmas.SrtDoc
/-!
# C63 — exporting to SRT or WebVTT and importing back
-/
namespace Verif.Props
open Verif Verif.Formats Verif.SrtDoc Verif.Spec.Fmt Verif.Spec.SrtDoc

/-- The event can be exported, with body `body L` and final text `t`. -/
private def Fit (strip : Bool) (e : Ev) (t : Str) (L : List (List Tok)) : Prop :=
  Canonical e.start ∧ Canonical e.fin ∧ (∀ l ∈ L, Carried l) ∧ bodyText strip e.text = body L ∧ t = text L

private theorem canonical_srt {x : Str} (h : Canonical x) :
    ∃ y, assTimeToSrt x = .ok y ∧ StampText y ∧ parseSrtTime y = some x := by
  obtain ⟨h, m, s, cs, hh, hm, hs, hc, rfl⟩ := h
  refine ⟨_, C31_export h m s cs hh (by omega) (by omega) hc, stampText (.inl rfl) (by omega) (by omega) (by omega), ?_⟩
  rw [C31_import h m s (cs * 10) hh (by omega) (by omega) (by omega)]
  simp

private theorem canonical_vtt {x : Str} (h : Canonical x) :
    ∃ y, assTimeToWebvtt x = .ok y ∧ StampText y ∧ parseWebvttTime y = some x := by
  obtain ⟨h, m, s, cs, hh, hm, hs, hc, rfl⟩ := h
  refine ⟨_, C32_export h m s cs hh (by omega) (by omega) hc, stampText (.inr rfl) (by omega) (by omega) (by omega), ?_⟩
  rw [C32_import h m s (cs * 10) hh (by omega) (by omega) (by omega)]
  simp

private theorem srt_core (strip : Bool) (f : Ev → Str) (evs : List Ev)
    (h : ∀ e ∈ evs, e.dialogue = true → ∃ L, Fit strip e (f e) L) : ∀ (i : Nat),
    ∃ out, exportSrtFrom strip i evs = .ok out ∧ ∀ acc,
      srtLines ⟨acc, none, false⟩ (lines out) =
        some ⟨acc ++ (evs.filter (·.dialogue)).map (fun e => ⟨e.start, e.fin, f e⟩), none, false⟩ := by
  induction evs with
  | nil => intro i; exact ⟨[], rfl, fun acc => by simp [srtLines]⟩
  | cons e l ih =>
    intro i
    have ih := ih (fun e he => h e (by simp [he]))
    by_cases hd : e.dialogue = true
    · obtain ⟨L, h1, h2, h3, h4, h5⟩ := h e (by simp) hd
      obtain ⟨x, x1, x2, x3⟩ := canonical_srt h1
      obtain ⟨y, y1, y2, y3⟩ := canonical_srt h2
      obtain ⟨out, o1, o2⟩ := ih (i + 1)
      refine ⟨showNat i ++ '\n' :: x ++ " --> ".toList ++ y ++ '\n' :: body L ++ "\n\n".toList ++ out, ?_, ?_⟩
      · rw [exportSrtFrom, if_pos hd, x1, y1]
        simp only
        rw [o1, h4]
      · intro acc
        rw [srtLines_block acc i x2 y2 x3 y3 h3, o2, List.filter_cons, if_pos hd, ← h5]
        simp
    · obtain ⟨out, o1, o2⟩ := ih i
      refine ⟨out, ?_, ?_⟩
      · rw [exportSrtFrom, if_neg hd]; exact o1
      · intro acc
        rw [o2, List.filter_cons, if_neg hd]

private theorem vtt_core (strip : Bool) (f : Ev → Str) (evs : List Ev)
    (h : ∀ e ∈ evs, e.dialogue = true → ∃ L, Fit strip e (f e) L ∧ ∀ l ∈ L, NotHeader l) :
    ∃ out, exportVttEvents strip evs = .ok out ∧ ∀ acc,
      vttLines ⟨acc, none, false⟩ (lines out) =
        some ⟨acc ++ (evs.filter (·.dialogue)).map (fun e => ⟨e.start, e.fin, f e⟩), none, false⟩ := by
  induction evs with
  | nil => exact ⟨[], rfl, fun acc => by simp [vttLines]⟩
  | cons e l ih =>
    have ih := ih (fun e he => h e (by simp [he]))
    by_cases hd : e.dialogue = true
    · obtain ⟨L, ⟨h1, h2, h3, h4, h5⟩, h6⟩ := h e (by simp) hd
      obtain ⟨x, x1, x2, x3⟩ := canonical_vtt h1
      obtain ⟨y, y1, y2, y3⟩ := canonical_vtt h2
      obtain ⟨out, o1, o2⟩ := ih
      refine ⟨x ++ " --> ".toList ++ y ++ '\n' :: body L ++ "\n\n".toList ++ out, ?_, ?_⟩
      · rw [exportVttEvents, if_pos hd, x1, y1]
        simp only
        rw [o1, h4]
      · intro acc
        rw [vttLines_block acc x2 y2 x3 y3 h3 h6, o2, List.filter_cons, if_pos hd, ← h5]
        simp
    · obtain ⟨out, o1, o2⟩ := ih
      refine ⟨out, ?_, ?_⟩
      · rw [exportVttEvents, if_neg hd]; exact o1
      · intro acc
        rw [o2, List.filter_cons, if_neg hd]

/-- **C63, partial.** Exporting events to SRT and importing the file gives back every dialogue event, in
order, with the same start, end and text, line breaks and bold, italic and underline included — for texts
whose lines SRT can carry.  Missing: blank lines in a text (`C63_blank_line_violated`) and lines with an
arrow or a `<` (`C63_arrow_violated`, `C63_angle_violated`). -/
theorem C63_srt_roundtrip_partial (evs : List Ev)
    (h : ∀ e ∈ evs, e.dialogue = true → Canonical e.start ∧ Canonical e.fin ∧
      ∃ L, (∀ l ∈ L, Carried l) ∧ e.text = text L) :
    ∃ out, exportSrt false evs = .ok out ∧
      parseSrtEntries out = some ((evs.filter (·.dialogue)).map (fun e => ⟨e.start, e.fin, e.text⟩)) := by
  obtain ⟨out, o1, o2⟩ := srt_core false (·.text) evs (fun e he hd => by
    obtain ⟨h1, h2, L, h3, h4⟩ := h e he hd
    exact ⟨L, h1, h2, h3, by rw [h4]; exact bodyText_format h3, h4⟩) 1
  refine ⟨out, o1, ?_⟩
  unfold parseSrtEntries
  rw [o2 []]
  simp [St.flush]

/-- **C63, partial.** The same when formatting is stripped: the texts come back without their tags.
Missing: texts with empty lines, arrows or angle brackets (`C63_blank_line_violated`, `C63_arrow_violated`, `C63_angle_violated`). -/
theorem C63_srt_stripped_partial (evs : List Ev)
    (h : ∀ e ∈ evs, e.dialogue = true → Canonical e.start ∧ Canonical e.fin ∧
      ∃ L, (∀ l ∈ L, Carried l) ∧ Unformatted L ∧ Stripped e.text (text L)) :
    ∃ out, exportSrt true evs = .ok out ∧
      parseSrtEntries out = some ((evs.filter (·.dialogue)).map (fun e => ⟨e.start, e.fin, stripAssTags e.text⟩)) := by
  obtain ⟨out, o1, o2⟩ := srt_core true (fun e => stripAssTags e.text) evs (fun e he hd => by
    obtain ⟨h1, h2, L, h3, h4, h5⟩ := h e he hd
    exact ⟨L, h1, h2, h3, bodyText_strip h3 h4 h5, (C30_strip_exact _ _).2 h5⟩) 1
  refine ⟨out, o1, ?_⟩
  unfold parseSrtEntries
  rw [o2 []]
  simp [St.flush]

/-- **C63, partial.** WebVTT, where a line must not begin with `WEBVTT` or `NOTE` either.
Missing: texts with empty lines, arrows or angle brackets (`C63_blank_line_violated`, `C63_arrow_violated`, `C63_angle_violated`). -/
theorem C63_webvtt_roundtrip_partial (evs : List Ev)
    (h : ∀ e ∈ evs, e.dialogue = true → Canonical e.start ∧ Canonical e.fin ∧
      ∃ L, (∀ l ∈ L, Carried l ∧ NotHeader l) ∧ e.text = text L) :
    ∃ out, exportVtt false evs = .ok out ∧
      parseVttCues out = some ((evs.filter (·.dialogue)).map (fun e => ⟨e.start, e.fin, e.text⟩)) := by
  obtain ⟨out, o1, o2⟩ := vtt_core false (·.text) evs (fun e he hd => by
    obtain ⟨h1, h2, L, h3, h4⟩ := h e he hd
    exact ⟨L, ⟨h1, h2, fun l hl => (h3 l hl).1, by rw [h4]; exact bodyText_format (fun l hl => (h3 l hl).1), h4⟩,
      fun l hl => (h3 l hl).2⟩)
  refine ⟨"WEBVTT\n\n".toList ++ out, by unfold exportVtt; rw [o1], ?_⟩
  unfold parseVttCues
  have e : "WEBVTT\n\n".toList ++ out = "WEBVTT".toList ++ '\n' :: ([] ++ '\n' :: out) := by simp
  rw [e, lines_append _ (by decide), lines_append _ (by simp), vttLines]
  have s1 : vttLine ⟨[], none, false⟩ (stripCr "WEBVTT".toList) = some ⟨[], none, false⟩ := by decide
  rw [s1]
  simp only
  rw [vttLines]
  have s2 : vttLine ⟨[], none, false⟩ (stripCr []) = some ⟨[], none, false⟩ := by decide
  rw [s2]
  simp only
  rw [o2 []]
  simp [St.flush]

private theorem srtLines_append (a b : List Str) : ∀ st, srtLines st (a ++ b) = (srtLines st a).bind (fun st => srtLines st b) := by
  induction a with
  | nil => intro st; rfl
  | cons l a ih =>
    intro st
    simp only [List.cons_append, srtLines]
    cases srtLine st l with
    | none => rfl
    | some st' => exact ih st'

/-- **C63.** The blank line that ends an exported file does not matter: a file that stops right after the last
character of its last text is read the same. -/
theorem C63_srt_final_blank (content : Str) (h : ∀ x, content.getLast? = some x → x ≠ '\n' ∧ x ≠ '\r') :
    parseSrtEntries (content ++ "\n\n".toList) = parseSrtEntries content := by
  by_cases hne : content = []
  · subst hne; decide
  · unfold parseSrtEntries
    rw [lines_blank hne h, srtLines_append]
    cases srtLines ⟨[], none, false⟩ (lines content) with
    | none => rfl
    | some st =>
      have : srtLine st [] = some st.flush := rfl
      simp only [Option.bind_some, srtLines, this]
      simp [St.flush]

example : parseSrtEntries "1\n00:00:01,000 --> 00:00:02,000\nHi".toList =
    some [⟨"0:00:01.00".toList, "0:00:02.00".toList, "Hi".toList⟩] := by decide

private theorem vttLines_append (a b : List Str) : ∀ st, vttLines st (a ++ b) = (vttLines st a).bind (fun st => vttLines st b) := by
  induction a with
  | nil => intro st; rfl
  | cons l a ih =>
    intro st
    simp only [List.cons_append, vttLines]
    cases vttLine st l with
    | none => rfl
    | some st' => exact ih st'

/-- **C63.** The same for WebVTT. -/
theorem C63_webvtt_final_blank (content : Str) (h : ∀ x, content.getLast? = some x → x ≠ '\n' ∧ x ≠ '\r') :
    parseVttCues (content ++ "\n\n".toList) = parseVttCues content := by
  by_cases hne : content = []
  · subst hne; decide
  · unfold parseVttCues
    rw [lines_blank hne h, vttLines_append]
    cases vttLines ⟨[], none, false⟩ (lines content) with
    | none => rfl
    | some st =>
      have : vttLine st [] = some st.flush := rfl
      simp only [Option.bind_some, vttLines, this]
      simp [St.flush]

/-- A line of the example. -/
def sampleLine : List Tok := [.i1, .ch 'H', .ch 'i', .i0, .ch ' ', .ch '>', .ch '1']

/-- A concrete instance of the hypotheses: two lines, the first with italics. -/
example : Carried sampleLine ∧ NotHeader sampleLine ∧ text [sampleLine, [.ch 'b']] = "{\\i1}Hi{\\i0} >1\\Nb".toList := by
  refine ⟨⟨by decide, by simp [sampleLine], ?_, ?_, ?_, ?_⟩, ?_, by decide⟩
  · intro c hc
    simp [sampleLine] at hc
    subst hc
    rw [← white_iff]; decide
  · simp [sampleLine]
  · exact splitOnceStr_none.1 (by decide)
  · exact splitOnceStr_none.1 (by decide)
  · constructor <;> intro t e <;> simp [sampleLine, line, Tok.ass] at e

example : exportSrt false [⟨true, "0:00:01.00".toList, "0:00:02.50".toList, "{\\i1}Hi{\\i0} >1\\Nb".toList⟩] =
    .ok "1\n00:00:01,000 --> 00:00:02,500\n<i>Hi</i> >1\nb\n\n".toList := by decide
example : parseSrtEntries "1\n00:00:01,000 --> 00:00:02,500\n<i>Hi</i> >1\nb\n\n".toList =
    some [⟨"0:00:01.00".toList, "0:00:02.50".toList, "{\\i1}Hi{\\i0} >1\\Nb".toList⟩] := by decide


/-- **C63, disagreement.** A text with a blank line loses everything after it. -/
theorem C63_blank_line_violated : ¬ ∀ (e : Ev) (out : Str), e.dialogue = true → Canonical e.start → Canonical e.fin →
    exportSrt false [e] = .ok out → ∃ x, parseSrtEntries out = some [⟨e.start, e.fin, x⟩] ∧ x = e.text := by
  intro h
  obtain ⟨x, h1, h2⟩ := h ⟨true, "0:00:01.00".toList, "0:00:02.00".toList, "a\\N\\Nb".toList⟩
    "1\n00:00:01,000 --> 00:00:02,000\na\n\nb\n\n".toList rfl ⟨0, 0, 1, 0, by decide⟩ ⟨0, 0, 2, 0, by decide⟩ (by decide)
  have : parseSrtEntries "1\n00:00:01,000 --> 00:00:02,000\na\n\nb\n\n".toList =
    some [⟨"0:00:01.00".toList, "0:00:02.00".toList, "a".toList⟩] := by decide
  rw [this] at h1
  simp at h1
  rw [← h1] at h2
  exact absurd h2 (by decide)

/-- **C63, disagreement.** A text line with an arrow is not read as text: it makes the import fail. -/
theorem C63_arrow_violated : ¬ ∀ (e : Ev) (out : Str), e.dialogue = true → Canonical e.start → Canonical e.fin →
    exportSrt false [e] = .ok out → ∃ l, parseSrtEntries out = some l := by
  intro h
  obtain ⟨x, h1⟩ := h ⟨true, "0:00:01.00".toList, "0:00:02.00".toList, "a --> b".toList⟩
    "1\n00:00:01,000 --> 00:00:02,000\na --> b\n\n".toList rfl ⟨0, 0, 1, 0, by decide⟩ ⟨0, 0, 2, 0, by decide⟩ (by decide)
  have : parseSrtEntries "1\n00:00:01,000 --> 00:00:02,000\na --> b\n\n".toList = none := by decide
  rw [this] at h1
  simp at h1

/-- **C63, disagreement.** Text between angle brackets disappears. -/
theorem C63_angle_violated : ¬ ∀ (e : Ev) (out : Str), e.dialogue = true → Canonical e.start → Canonical e.fin →
    exportSrt false [e] = .ok out → ∃ x, parseSrtEntries out = some [⟨e.start, e.fin, x⟩] ∧ x = e.text := by
  intro h
  obtain ⟨x, h1, h2⟩ := h ⟨true, "0:00:01.00".toList, "0:00:02.00".toList, "1<2, 3>2".toList⟩
    "1\n00:00:01,000 --> 00:00:02,000\n1<2, 3>2\n\n".toList rfl ⟨0, 0, 1, 0, by decide⟩ ⟨0, 0, 2, 0, by decide⟩ (by decide)
  have : parseSrtEntries "1\n00:00:01,000 --> 00:00:02,000\n1<2, 3>2\n\n".toList =
    some [⟨"0:00:01.00".toList, "0:00:02.00".toList, "12".toList⟩] := by decide
  rw [this] at h1
  simp at h1
  rw [← h1] at h2
  exact absurd h2 (by decide)

end Verif.Props
