import Verif.Lemmas.FormatDoc
/-! # C99: SRT and WebVTT through the format registry -/
namespace Verif.Props
open Verif Verif.FormatDoc
open Verif.Formats
open Verif.SrtDoc (Ev)
open Verif.Spec.SrtDoc (White)
open Verif.Spec.FormatDoc
open Verif.Spec.RoundTrip (content)
open Verif.Spec.Script (size unknowns)
open Verif.Parser (parse)

/-- The document is a script with this contents and nothing unknown in it. -/
abbrev Holds (t : Str) (c : List Spec.RoundTrip.Content) : Prop :=
  size t ≤ 50 * 1024 * 1024 → ∃ s, parse t = some s ∧ s.sections.map content = c ∧ unknowns s.issues = []

theorem srt_holds {xs : List Sub} (hok : ∀ x ∈ xs, x.Ok) : Holds (script srtHead (xs.map said)) (srtScript xs) :=
  script_parsed (info_ok (by decide) (by decide)) hok srtHead_eq

theorem vtt_holds {xs : List Sub} (hok : ∀ x ∈ xs, x.Ok) : Holds (script vttHead (xs.map said)) (vttScript xs) := by
  refine script_parsed ?_ hok vttHead_eq
  intro f hf
  rcases List.mem_append.1 hf with hf | hf
  · exact info_ok (by decide) (by decide) f hf
  · simp only [List.mem_cons, List.not_mem_nil, or_false] at hf
    rcases hf with rfl | rfl <;> exact field_ok (by decide) (by decide) (by decide)

/-! Two subtitles to show that the hypotheses can be met. -/

/-- Two lines, with italics. -/
def subA : Sub := ⟨⟨0, 0, 1, 500⟩, ⟨0, 0, 4, 0⟩, [[.ch 'H', .on .i, .ch 'i', .off .i], [.ch 'y', .ch ' ', .ch 'o']], none⟩
/-- One line. -/
def subB : Sub := ⟨⟨1, 2, 3, 40⟩, ⟨1, 2, 5, 60⟩, [[.on .b, .ch 'B', .off .b]], none⟩

theorem subA_ok : subA.Ok := by
  refine ⟨⟨by decide, by decide, by decide⟩, ⟨by decide, by decide, by decide⟩, by decide, ?_, ?_, ?_⟩
  · intro l hl
    simp only [subA, List.mem_cons, List.not_mem_nil, or_false] at hl
    rcases hl with rfl | rfl
    · exact ⟨by intro c hc; simp at hc; rcases hc with rfl | rfl <;> decide, by decide, .on .i, by decide, by intro c hc; cases hc⟩
    · exact ⟨by intro c hc; simp at hc; rcases hc with rfl | rfl | rfl <;> decide, by decide, .ch 'y', by decide,
        by intro c hc; cases hc; exact not_white_of (by decide)⟩
  · intro c hc
    have : (text subA.lines).head? = some 'H' := by decide
    rw [this] at hc; cases hc; exact not_white_of (by decide)
  · intro c hc
    have : (text subA.lines).getLast? = some 'o' := by decide
    rw [this] at hc; cases hc; exact not_white_of (by decide)

theorem subB_ok : subB.Ok := by
  refine ⟨⟨by decide, by decide, by decide⟩, ⟨by decide, by decide, by decide⟩, by decide, ?_, ?_, ?_⟩
  · intro l hl
    simp only [subB, List.mem_cons, List.not_mem_nil, or_false] at hl
    subst hl
    exact ⟨by intro c hc; simp at hc; subst hc; decide, by decide, .on .b, by decide, by intro c hc; cases hc⟩
  · intro c hc
    have : (text subB.lines).head? = some '{' := by decide
    rw [this] at hc; cases hc; exact not_white_of (by decide)
  · intro c hc
    have : (text subB.lines).getLast? = some '}' := by decide
    rw [this] at hc; cases hc; exact not_white_of (by decide)

theorem subs_ok : ∀ x ∈ [subA, subB], x.Ok := by
  intro x hx
  simp only [List.mem_cons, List.not_mem_nil, or_false] at hx
  rcases hx with rfl | rfl
  · exact subA_ok
  · exact subB_ok

/-! ## Import -/

/-- **C99 (SRT import).**  An SRT file of well formed subtitles — with whatever as their numbers, with blank lines
between them, before the first and after the last, with either end of line — becomes a script that holds one Dialogue
event for each, in order, with its times (hundredths cut off) and its lines, and nothing else.  There is one warning for
every blank line at the end.

Missing: texts with `<`, `{` or backslashes, files without an end of line at the end, malformed subtitles. -/
theorem C99_srt_import_partial {eol : Str} (he : Eol eol) {xs : List Sub} {ls : List Str} {w : Nat} (h : SrtFile xs ls w)
    (hok : ∀ x ∈ xs, x.Ok) : ∃ t, importSrt (file eol ls) = .ok (t, w) ∧ Holds t (srtScript xs) := by
  refine ⟨script srtHead (xs.map said), ?_, srt_holds hok⟩
  unfold importSrt
  rw [srtDialogues_eq he h hok]

example : ∃ w, SrtFile [subA, subB] (numbered Time.srt 7 [subA, subB]) w := ⟨_, srt_numbered (by decide) 7⟩
example : (importSrt "7\r\n00:00:01,509 --> 00:00:04,000\r\nH<i>i</i>\r\nyo\r\n\r\n".toList) =
    .ok (script srtHead ["Dialogue: 0,0:00:01.50,0:00:04.00,Default,,0,0,0,,H{\\i1}i{\\i0}\\Nyo".toList], 1) := by decide +kernel

/-- **C99 (WebVTT import).**  The same for WebVTT files whose first line begins with `WEBVTT`: cues may have names, an
`align` setting (which becomes an `\an` tag) and short times, and notes may stand between them.

Missing: as above; other settings, notes of several lines, lines after the header that belong to it. -/
theorem C99_vtt_import_partial (coord : Nat → Str → Option Nat) {eol : Str} (he : Eol eol) {xs : List Sub} {ls : List Str} {w : Nat}
    (h : VttFile xs ls w) (hok : ∀ x ∈ xs, x.Ok) {hd : Str} (hraw : RawLine hd) (hh : ∃ t, hd = "WEBVTT".toList ++ t) :
    ∃ t, importVtt coord (file eol (hd :: ls)) = .ok (t, w) ∧ Holds t (vttScript xs) := by
  obtain ⟨t, hh⟩ := hh
  refine ⟨script vttHead (xs.map said), ?_, vtt_holds hok⟩
  unfold importVtt
  rw [vttDialogues_eq coord he h hok hraw hh]

example : VttFile [{ subB with place := some 3 }] ["NOTE x".toList, "intro".toList, "01:02:03.040 --> 01:02:05.060 align:end".toList, "<b>B</b>".toList] 0 := by
  refine File.last _ _ ["NOTE x".toList] ⟨?_, ["intro".toList], _, _, _, Or.inr ⟨_, rfl, ?_⟩, Or.inl rfl, Or.inl rfl,
    .align "end".toList 3 (by decide), by decide⟩ ?_
  · intro l hl
    simp [subB] at hl; subst hl; exact ⟨by decide, by decide⟩
  · refine ⟨?_, ⟨by decide, by decide⟩, ?_⟩
    · intro h
      exact absurd (between_skipped h) (by decide)
    · intro a b e
      have : '-' ∈ "intro".toList := by rw [e]; simp
      exact absurd this (by decide)
  · intro l hl
    simp at hl; subst hl
    exact ⟨⟨by decide, by decide⟩, Or.inr ⟨[], " x".toList, by simp, by decide⟩⟩

/-- **C99 (WebVTT import without header).**  If the first line does not begin so, the file is read all the same, with
one more warning.
Missing: texts with other tags, backslashes or angle brackets, and malformed cues. -/
theorem C99_vtt_headless_partial (coord : Nat → Str → Option Nat) {eol : Str} (he : Eol eol) {xs : List Sub} {l : Str} {ls : List Str}
    {w : Nat} (h : VttFile xs (l :: ls) w) (hok : ∀ x ∈ xs, x.Ok)
    (hh : ∀ a t, (∀ c ∈ a, White c) → l ≠ a ++ "WEBVTT".toList ++ t) :
    ∃ t, importVtt coord (file eol (l :: ls)) = .ok (t, w + 1) ∧ Holds t (vttScript xs) := by
  refine ⟨script vttHead (xs.map said), ?_, vtt_holds hok⟩
  unfold importVtt
  rw [vttDialogues_headless coord he h hok hh]

example (coord : Nat → Str → Option Nat) : importVtt coord "00:01.000 --> 00:02.000\nHi\n".toList =
    .ok (script vttHead ["Dialogue: 0,0:00:01.00,0:00:02.00,Default,,0,0,0,,Hi".toList], 1) := by rfl

/-! ## Export and round trip -/

theorem srt_written {t : Time} (h : t.Ok) (g : t.Given) : fmtFormat ',' t.ass = .ok t.srt := by
  have := C31_format_export t.h t.m t.s (t.ms / 10) g.2 (by have := h.m; omega) (by have := h.s; omega) (by have := h.ms; omega)
  unfold Time.ass Time.srt
  rw [this, show t.ms / 10 * 10 = t.ms by have := g.1; omega]

theorem vtt_written {t : Time} (h : t.Ok) (g : t.Given) : fmtFormat '.' t.ass = .ok t.vtt := by
  have := C32_format_export t.h t.m t.s (t.ms / 10) g.2 (by have := h.m; omega) (by have := h.s; omega) (by have := h.ms; omega)
  unfold Time.ass Time.vtt
  rw [this, show t.ms / 10 * 10 = t.ms by have := g.1; omega]

/-- **C99 (SRT export).**  The file has one numbered subtitle for every Dialogue event, in order, with its times and
lines, and nothing of the other events; the number of subtitles is reported.

Missing: times not in the usual form (such events are left out with a warning), other tags in the text (for these see
`C99_srt_blocks_partial`). -/
theorem C99_srt_export_partial {evs : List Ev} {xs : List Sub} (h : Shows evs xs) (hok : ∀ x ∈ xs, x.Ok) :
    exportSrt evs = .ok (file ['\n'] (numbered Time.srt 1 xs), xs.length) :=
  exportFrom_eq (fun _ => srt_written) h hok (fun x hx => exportText_srt (hok x hx).text.lines) 1

/-- **C99 (WebVTT export).**  The same with the header before it, for texts without strike out.
Missing: texts with strike out, and events whose text is empty or holds empty lines (`C99_empty_text_violated`,
`C99_empty_line_violated`). -/
theorem C99_vtt_export_partial {evs : List Ev} {xs : List Sub} (h : Shows evs xs) (hok : ∀ x ∈ xs, x.Ok)
    (hs : ∀ x ∈ xs, ∀ l ∈ x.lines, NoStrike l) :
    exportVtt evs = .ok (file ['\n'] ("WEBVTT".toList :: [] :: numbered Time.vtt 1 xs), xs.length) := by
  unfold exportVtt
  rw [exportFrom_eq (fun _ => vtt_written) h hok (fun x hx => exportText_vtt (hok x hx).text.lines (hs x hx)) 1]
  rfl

/-- Three events, one of them a comment. -/
def threeEvs : List Ev :=
  [⟨true, "0:00:01.50".toList, "0:00:04.00".toList, "H{\\i1}i{\\i0}\\Ny o".toList⟩, ⟨false, "x".toList, [], "no".toList⟩,
   ⟨true, "1:02:03.04".toList, "1:02:05.06".toList, "{\\b1}B{\\b0}".toList⟩]

theorem three_shown : Shows threeEvs [subA, subB] :=
  .cons _ _ _ _ rfl rfl (by decide +kernel) (by decide +kernel) (by decide +kernel) (by unfold Time.Given; decide) (by unfold Time.Given; decide)
    (.other _ _ _ rfl (.cons _ _ _ _ rfl rfl (by decide +kernel) (by decide +kernel) (by decide +kernel) (by unfold Time.Given; decide) (by unfold Time.Given; decide) .nil))

example : exportSrt threeEvs = .ok ("1\n00:00:01,500 --> 00:00:04,000\nH<i>i</i>\ny o\n\n2\n01:02:03,040 --> 01:02:05,060\n<b>B</b>\n\n".toList, 2) := by
  rw [C99_srt_export_partial three_shown subs_ok]; decide +kernel

/-- **C99 (SRT round trip).**  Exporting and importing again keeps every Dialogue event's times and text, in order; what
is lost is style, actor, layer, margins and effect, and everything but Dialogue events.

Missing: as above. -/
theorem C99_srt_round_trip_partial {evs : List Ev} {xs : List Sub} (h : Shows evs xs) (hok : ∀ x ∈ xs, x.Ok) :
    ∃ f t w, exportSrt evs = .ok (f, xs.length) ∧ importSrt f = .ok (t, w) ∧ w ≤ 1 ∧ Holds t (srtScript xs) := by
  obtain ⟨t, h1, h2⟩ := C99_srt_import_partial (Or.inl rfl) (srt_numbered (shows_place h) 1) hok
  exact ⟨_, t, _, C99_srt_export_partial h hok, h1, by split <;> omega, h2⟩

/-- **C99 (WebVTT round trip).**
Missing: as for import and export: texts with strike out, empty lines, or angle brackets. -/
theorem C99_vtt_round_trip_partial (coord : Nat → Str → Option Nat) {evs : List Ev} {xs : List Sub} (h : Shows evs xs)
    (hok : ∀ x ∈ xs, x.Ok) (hs : ∀ x ∈ xs, ∀ l ∈ x.lines, NoStrike l) :
    ∃ f t w, exportVtt evs = .ok (f, xs.length) ∧ importVtt coord f = .ok (t, w) ∧ w ≤ 1 ∧ Holds t (vttScript xs) := by
  have hf := file_pre (G := Between) (g := []) ⟨nil_blank.1, Or.inl nil_blank.2⟩ (vtt_numbered (shows_place h) hs 1)
  obtain ⟨t, h1, h2⟩ := C99_vtt_import_partial coord (Or.inl rfl) hf hok (hd := "WEBVTT".toList) ⟨by decide, by decide⟩ ⟨[], by decide⟩
  refine ⟨_, t, _, C99_vtt_export_partial h hok hs, h1, ?_, h2⟩
  by_cases e : xs = [] <;> simp [e]

example : srtScript [subA, subB] ≠ srtScript [subB, subA] := by decide +kernel

/-! ## Where it fails -/

/-- What importing the exported file gives, as event lines and number of warnings. -/
def again (l : List Ev) : Outcome (List Str × Nat) :=
  match exportSrt l with
  | .ok (t, _) => srtDialogues t
  | .err => .err
  | .panic => .panic

/-- An event shown from 1 s to 2 s. -/
def shown (t : Str) : Ev := ⟨true, "0:00:01.00".toList, "0:00:02.00".toList, t⟩

/-- **C99 fails for colours on export.**  A colour tag is deleted, and its end becomes an end tag without a start. -/
theorem C99_colour_export_violated :
    exportSrt [shown "{\\c&H0000FF&}red{\\c}".toList] = .ok ("1\n00:00:01,000 --> 00:00:02,000\nred</font>\n\n".toList, 1) ∧
    exportVtt [shown "{\\c&H0000FF&}red{\\c}".toList] = .ok ("WEBVTT\n\n1\n00:00:01.000 --> 00:00:02.000\nred</c>\n\n".toList, 1) := by
  decide +kernel

/-- **C99 fails for colours on import.**  Red in SRT (red, green, blue) becomes blue in the script (blue, green, red). -/
theorem C99_colour_import_violated :
    srtDialogues "1\n00:00:01,000 --> 00:00:02,000\n<font color=\"#FF0000\">red</font>\n".toList =
      .ok (["Dialogue: 0,0:00:01.00,0:00:02.00,Default,,0,0,0,,{\\c&HFF0000&}red{\\c}".toList], 0) := by decide +kernel

/-- **C99 fails for an empty line in a text**: what follows it is lost. -/
theorem C99_empty_line_violated :
    again [shown "one\\N\\Ntwo".toList, shown "three".toList] =
      .ok (["Dialogue: 0,0:00:01.00,0:00:02.00,Default,,0,0,0,,one".toList, "Dialogue: 0,0:00:01.00,0:00:02.00,Default,,0,0,0,,three".toList], 3) := by
  decide +kernel

/-- **C99 fails for an event without text**: it is lost. -/
theorem C99_empty_text_violated :
    again [shown [], shown "three".toList] = .ok (["Dialogue: 0,0:00:01.00,0:00:02.00,Default,,0,0,0,,three".toList], 3) := by
  decide +kernel

/-- **C99 fails for warnings**: the file this library writes is imported with a warning. -/
theorem C99_warning_violated : again [shown "one".toList] = .ok (["Dialogue: 0,0:00:01.00,0:00:02.00,Default,,0,0,0,,one".toList], 1) := by
  decide +kernel

/-- **C99 fails for soft line breaks**: they become hard ones. -/
theorem C99_soft_break_violated : again [shown "one\\ntwo".toList] = .ok (["Dialogue: 0,0:00:01.00,0:00:02.00,Default,,0,0,0,,one\\Ntwo".toList], 1) := by
  decide +kernel

/-- **C99 fails for a cut off time line**: the WebVTT importer panics. -/
theorem C99_cut_off_violated (coord : Nat → Str → Option Nat) : importVtt coord "WEBVTT\n\n00:00:01.000 -->\nHi\n".toList = .panic := by
  rfl

/-- **C99 fails for a position** given without a line: it is ignored (so are, the numbers being fractions, all in
percent). -/
theorem C99_position_violated (coord : Nat → Str → Option Nat) :
    vttDialogues coord "WEBVTT\n\n00:01.000 --> 00:02.000 position:10%\nHi\n".toList =
      .ok (["Dialogue: 0,0:00:01.00,0:00:02.00,Default,,0,0,0,,Hi".toList], 0) := by rfl

/-- **C99 fails for numbers in angle brackets** in WebVTT: they are taken for time stamps and deleted. -/
theorem C99_brackets_violated (coord : Nat → Str → Option Nat) :
    vttDialogues coord "WEBVTT\n\n00:01.000 --> 00:02.000\nI <3> U\n".toList =
      .ok (["Dialogue: 0,0:00:01.00,0:00:02.00,Default,,0,0,0,,I  U".toList], 0) := by rfl

end Verif.Props
