import Verif.Lemmas.RoundTrip
import Verif.Props.Script
/-!
# C75: a whole script written and parsed again

`Script::to_ass_string` then `Script::parse`.
-/
namespace Verif.Parser
open Verif
open Verif.Ast
open Verif.Spec.EventCmd (White Trimmed Plain)
open Verif.Spec.Lines
open Verif.Spec.Script
open Verif.Spec.RoundTrip

/-- **C75, partial.** A script each of whose sections can be written down, written and parsed again: the same sections in
the same order, each with the same properties, styles, events or files, field by field; no unknown section; the field
list of the events (and of the styles, if there is one) is the same where there is such a section.

Missing: scripts with parents of styles, several embedded files in a section, sections whose field lists differ, fields
with stray blanks or names spelled otherwise (where it fails, see below and C10, C11). -/
theorem C75_round_trip_partial {s : Script} (hs : ∀ x ∈ s.sections, Writable s.stylesFmt s.eventsFmt (content x))
    (hsize : size (toAss s) ≤ 50 * 1024 * 1024) :
    ∃ s', parse (toAss s) = some s' ∧ s'.sections.map content = s.sections.map content ∧ unknowns s'.issues = [] ∧
      ((∃ x ∈ s.sections, ∃ l, content x = .events l) → s'.eventsFmt = s.eventsFmt) ∧
      ((∃ x ∈ s.sections, ∃ l, content x = .styles l) → s.stylesFmt ≠ none → s'.stylesFmt = s.stylesFmt) := by
  have e : toAss s = unlines (s.sections.flatMap (linesOf s.stylesFmt s.eventsFmt)) := toAss_lines _ _ _
  obtain ⟨segs, h1, h2⟩ := segments_of (l := s.sections) 0 hs
  have hd : Document (toAss s) segs := by
    refine ⟨[], [], toAss s, _, rfl, Or.inr ⟨rfl, ?_⟩, by rw [e]; rfl, by rw [List.nil_append]; exact lines_flat hs, by simp, h1⟩
    rw [e]
    cases s.sections with
    | nil => simp [unlines]
    | cons x l =>
      rw [List.flatMap_cons, linesOf, List.cons_append, unlines_cons (by simp)]
      intro h
      exact absurd (Option.some.inj h) (by decide)
  obtain ⟨s', ss, us, g1, g2, g3, g4⟩ := C09_sections_partial hsize hd
  obtain ⟨i1, i2, i3, i4⟩ := sections_back hs h2 g2
  refine ⟨s', g1, ?_, by rw [g4, i2], ?_, ?_⟩
  · rw [← i1, ← g3, List.map_map]
    exact List.map_congr_left (fun x _ => (strip_said x).symm)
  · rintro ⟨x, hx, l, hl⟩
    exact i4 (Or.inr ⟨x, hx, by rw [hl]; rfl⟩)
  · rintro ⟨x, hx, l, hl⟩ hne
    exact i3 hne (Or.inr ⟨x, hx, by rw [hl]; rfl⟩)

/-- A source with properties, a style, events by a field list of its own, and a font. -/
private def src0 : Str :=
  "[Script Info]\nTitle: A: b\nScriptType: v4.00+\n\n[V4+ Styles]\nFormat: Name, Fontsize\nStyle: Main,20\n[Events]\nFormat: Start, End, Text\n; remark\nDialogue: 0:00:01.00,0:00:02.00, a, {\\i1}b\nComment: 1,2,\n[Fonts]\nfontname: x.ttf\nabc\n".toList

private def cont0 : List Content :=
  [.info [("Title".toList, "A: b".toList), ("ScriptType".toList, "v4.00+".toList)],
   .styles [{ styleOf none [] [] with name := "Main".toList, fontsize := "20".toList }],
   .events [{ eventOf .dialogue [] [] with start := "0:00:01.00".toList, stop := "0:00:02.00".toList, text := "a, {\\i1}b".toList },
     { eventOf .comment [] [] with start := "1".toList, stop := "2".toList }],
   .fonts [("x.ttf".toList, ["abc".toList])]]

set_option maxRecDepth 20000 in
/-- It is parsed to a script that can be written down, and what is written is different text with the same content. -/
example : (parse src0).map (fun s => (s.sections.map content, s.stylesFmt, s.eventsFmt)) =
      some (cont0, some ["Name".toList, "Fontsize".toList], some ["Start".toList, "End".toList, "Text".toList]) ∧
    (parse src0).map toAss = some "[Script Info]\nTitle: A: b\nScriptType: v4.00+\n\n[V4+ Styles]\nFormat: Name, Fontsize\nStyle: Main,20\n\n[Events]\nFormat: Start, End, Text\nDialogue: 0:00:01.00,0:00:02.00,a, {\\i1}b\nComment: 1,2,\n\n[Fonts]\nfontname: x.ttf\nabc\n".toList ∧
    ∀ c ∈ cont0, Writable (some ["Name".toList, "Fontsize".toList]) (some ["Start".toList, "End".toList, "Text".toList]) c := by
  refine ⟨by decide, by decide, ?_⟩
  unfold cont0
  simp only [List.forall_mem_cons]
  refine ⟨?_, ⟨?_, ?_⟩, ⟨?_, ?_⟩, ?_, by simp⟩
  · intro f hf
    simp only [List.mem_cons, List.not_mem_nil, or_false] at hf
    rcases hf with rfl | rfl <;> refine ⟨by decide, ?_, by decide, by decide⟩ <;> unfold Trimmed White <;> simp
  · intro f hf
    cases hf
    refine ⟨⟨by decide, ?_⟩, by unfold StyleSpelled SameName; decide⟩
    unfold Trimmed White
    simp
  · intro s hs
    rw [List.mem_singleton] at hs
    subst hs
    refine ⟨⟨?_, ?_⟩, ⟨?_, ?_⟩, ⟨?_, ?_⟩, rfl, ?_, ?_⟩
    · simp only [styleFields, List.forall_mem_cons, styleOf, getField, optField, hasField]
      unfold Plain Trimmed White
      simp
    · simp only [styleOptions, List.forall_mem_cons, styleOf, getField, optField, hasField]; simp
    · simp only [styleFields, List.forall_mem_cons, styleOf, getField, optField, hasField]; simp
    · simp only [styleOptions, List.forall_mem_cons, styleOf, getField, optField, hasField]; simp
    · simp only [styleFields, List.forall_mem_cons, styleOf, getField, optField, hasField]; simp
    · simp only [styleOptions, List.forall_mem_cons, styleOf, getField, optField, hasField]; simp
    · unfold Has SameName styleFields; simp only [List.forall_mem_cons, styleOf, getField]; simp
    · unfold Has SameName styleOptions; simp only [List.forall_mem_cons, styleOf, optField, hasField]; simp
  · intro f hf
    cases hf
    refine ⟨⟨by decide, ?_⟩, by unfold EventSpelled SameName; decide, Or.inl ⟨["Start".toList, "End".toList], by decide, by decide⟩⟩
    unfold Trimmed White
    simp
  · intro s hs
    simp only [List.mem_cons, List.not_mem_nil, or_false] at hs
    rcases hs with rfl | rfl
    all_goals
      refine ⟨⟨?_, ?_⟩, ?_, ⟨?_, ?_, by decide⟩, ?_, ?_, ?_⟩
      · simp only [eventFields, List.forall_mem_cons, eventOf, getField, optField, hasField]
        unfold Plain Trimmed White
        simp
      · simp only [eventOptions, List.forall_mem_cons, eventOf, getField, optField, hasField]; simp
      · unfold Trimmed White; simp [eventOf, getField]
      · simp only [eventFields, List.forall_mem_cons, eventOf, getField, optField, hasField]; simp
      · simp only [eventOptions, List.forall_mem_cons, eventOf, getField, optField, hasField]; simp
      · unfold Has SameName eventFields; simp only [List.forall_mem_cons, eventOf, getField]; simp
      · unfold Has SameName eventOptions; simp only [List.forall_mem_cons, eventOf, optField, hasField]; simp
      · unfold Has SameName; simp
  · refine ⟨by decide, ?_, ?_⟩
    · intro m hm
      rw [List.mem_singleton] at hm
      subst hm
      unfold Trimmed White
      simp
    · intro m hm x hx
      rw [List.mem_singleton] at hm
      subst hm
      rw [List.mem_singleton] at hx
      subst hx
      refine ⟨by decide, ?_, ?_, ?_⟩
      · rw [← not_opens_spec]; decide
      · rw [← ends_spec]; decide
      · rw [← dropped_spec]; decide

/-- **C75 fails** where two sections of events have field lists of their own: both are written by the last one. -/
theorem C75_formats_violated : ∃ (src : Str) (s s' : Script), parse src = some s ∧ parse (toAss s) = some s' ∧
    s'.sections.map content ≠ s.sections.map content := by
  let src : Str := "[Events]\nFormat: Layer, Text\nDialogue: 3,a\n[Events]\nFormat: Text\nDialogue: b\n".toList
  cases h : parse src with
  | none => exact absurd h (C09_total _)
  | some s =>
    cases h' : parse (toAss s) with
    | none => exact absurd h' (C09_total _)
    | some s' =>
      refine ⟨src, s, s', h, h', ?_⟩
      have hb : (parse src).bind (fun s => (parse (toAss s)).map (fun s' => decide (s'.sections.map content ≠ s.sections.map content))) =
        some true := by decide
      rw [h, Option.bind_some, h', Option.map_some] at hb
      simpa using hb

/-- **C75 fails** where a section has two embedded files: the second becomes data of the first. -/
theorem C75_files_violated : ∃ (src : Str) (s s' : Script), parse src = some s ∧ parse (toAss s) = some s' ∧
    s.sections.map content = [.fonts [("a".toList, ["xy".toList]), ("b".toList, ["zz".toList])]] ∧
    s'.sections.map content = [.fonts [("a".toList, ["xy".toList, "fontname: b".toList, "zz".toList])]] := by
  let src : Str := "[Fonts]\nfontname: a\nxy\n\nfontname: b\nzz\n".toList
  cases h : parse src with
  | none => exact absurd h (C09_total _)
  | some s =>
    cases h' : parse (toAss s) with
    | none => exact absurd h' (C09_total _)
    | some s' =>
      refine ⟨src, s, s', h, h', ?_⟩
      have hb : (parse src).bind (fun s => (parse (toAss s)).map (fun s' => (s.sections.map content, s'.sections.map content))) =
        some ([.fonts [("a".toList, ["xy".toList]), ("b".toList, ["zz".toList])]],
          [.fonts [("a".toList, ["xy".toList, "fontname: b".toList, "zz".toList])]]) := by decide
      rw [h, Option.bind_some, h', Option.map_some] at hb
      simpa using hb

/-- **C75 fails** for a style with a parent. -/
theorem C75_parent_violated : ∃ (src : Str) (s s' : Script), parse src = some s ∧ parse (toAss s) = some s' ∧
    s'.sections.map content ≠ s.sections.map content := by
  let src : Str := "[V4+ Styles]\nFormat: Name, Fontname\nStyle: *Base,Main,Arial\n".toList
  cases h : parse src with
  | none => exact absurd h (C09_total _)
  | some s =>
    cases h' : parse (toAss s) with
    | none => exact absurd h' (C09_total _)
    | some s' =>
      refine ⟨src, s, s', h, h', ?_⟩
      have hb : (parse src).bind (fun s => (parse (toAss s)).map (fun s' => decide (s'.sections.map content ≠ s.sections.map content))) =
        some true := by decide
      rw [h, Option.bind_some, h', Option.map_some] at hb
      simpa using hb

end Verif.Parser
