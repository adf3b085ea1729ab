import Verif.Lemmas.Lint
import Verif.Props.Overlap
import Verif.Props.Color
/-!
# C42, C82, C83 — linting and validation

`lint alone child c secs` is what linting the sections `secs` under the configuration `c` reports; `alone s` tells whether
the style `s` can be resolved without its parent, `child s` whether it can with one.
-/
namespace Verif.Props
open Verif Verif.Lint Verif.Spec Verif.Spec.Lint
open Verif.Ast (Event Style)

/-- An event. -/
def lintEvent (kind : Ast.Kind) (start stop style text : String) : Event × Parser.Span :=
  (⟨kind, ['0'], start.toList, stop.toList, style.toList, [], ['0'], ['0'], ['0'], none, none, [], text.toList⟩, ⟨0, 0, 0, 0⟩)

/-- A style, with the same text for each colour. -/
def lintStyle (name : String) (parent : Option String) (size colour : String) : Style × Parser.Span :=
  (⟨name.toList, parent.map String.toList, "Arial".toList, size.toList, colour.toList, colour.toList, colour.toList, colour.toList,
    ['0'], ['0'], ['0'], ['0'], ['1'], ['1'], ['0'], ['0'], ['1'], ['1'], ['1'], ['2'], ['0'], ['0'], ['0'], none, none, ['1'], none⟩,
    ⟨0, 0, 0, 0⟩)

/-! ## C82: the rules -/

/-- **C82, negative durations.** An error is reported for exactly those events whose two times can be read and whose end
is not after the start, in order. -/
theorem C82_duration {alone child : Style → Bool} {secs : List Parser.Section} {ev : List Event} {l : List Issue}
    (he : FirstEvents secs ev) (h : lint alone child Config.default secs = .ok l) :
    Reports NoDuration (fun e => ⟨.error, "negative-duration".toList, .duration e.start e.stop⟩) ev
      (ofRule "negative-duration".toList l) := by
  obtain ⟨inf, _, h2⟩ := lint_rule h
  have h3 := h2 "negative-duration".toList (durationRule (firstEvents secs)) (by simp [allRules])
  rw [firstEvents_spec he] at h3
  obtain ⟨g, g1, g2⟩ := collect_ok.1 h3
  rw [g2]
  exact reports_flatMap ev (fun x hx => durationCheck_spec x _ (g1 x hx))

/-- **C82, missing styles (partial).** An error is reported for exactly those events whose style is not the name of a style,
in the first section of styles, that can be resolved without its parent.  (The claim would be: not the name of any defined
style; see `C82_inherited_violated` and `C82_second_section_violated`.) -/
theorem C82_style_partial {alone child : Style → Bool} {secs : List Parser.Section} {ev : List Event} {st : List Style} {l : List Issue}
    (he : FirstEvents secs ev) (hs : FirstStyles secs st) (h : lint alone child Config.default secs = .ok l) :
    Reports (fun e => ¬ ∃ s ∈ st, s.name = e.style ∧ alone s = true)
      (fun e => ⟨.error, "missing-style".toList, .style e.style⟩) ev (ofRule "missing-style".toList l) := by
  obtain ⟨inf, _, h2⟩ := lint_rule h
  have h3 := h2 "missing-style".toList (.ok (styleRule (resolvedNames alone child (firstStyles secs)) (firstEvents secs))) (by simp [allRules])
  rw [firstEvents_spec he, firstStyles_spec hs] at h3
  injection h3 with h3
  rw [← h3]
  unfold styleRule
  apply reports_flatMap
  intro e _
  rw [← resolvedNames_spec alone child]
  refine ⟨fun hn => ?_, fun hn => ?_⟩
  · rw [if_neg (by simpa using hn)]
  · rw [if_pos (by simpa using hn)]

/-- **C82, colours of styles.** A colour of a style is reported exactly if the colour parser refuses it. -/
theorem C82_style_colour {alone child : Style → Bool} {secs : List Parser.Section} {st : List Style} {l : List Issue}
    (hs : FirstStyles secs st) (h : lint alone child Config.default secs = .ok l) (field value : List Char) :
    (⟨.error, "invalid-color".toList, .styleColor field value⟩ : Issue) ∈ l ↔
      ∃ s ∈ st, (field, value) ∈ colours s ∧ Color.parseBgrColor value = none := by
  obtain ⟨inf, _, h2⟩ := lint_rule h
  have h3 := h2 "invalid-color".toList (colorRule (firstStyles secs) (firstEvents secs)) (by simp [allRules])
  rw [firstStyles_spec hs] at h3
  have hm : (⟨.error, "invalid-color".toList, .styleColor field value⟩ : Issue) ∈ l ↔
      (⟨.error, "invalid-color".toList, .styleColor field value⟩ : Issue) ∈ ofRule "invalid-color".toList l := by
    unfold ofRule
    rw [List.mem_filter]
    simp
  rw [hm]
  unfold colorRule both at h3
  cases hc : collect eventColors (firstEvents secs) with
  | err => rw [hc] at h3; cases h3
  | panic => rw [hc] at h3; cases h3
  | ok y =>
    rw [hc] at h3
    injection h3 with h3
    rw [← h3, List.mem_append]
    have hy : (⟨.error, "invalid-color".toList, .styleColor field value⟩ : Issue) ∉ y := by
      intro hin
      obtain ⟨g, g1, g2⟩ := collect_ok.1 hc
      rw [g2] at hin
      obtain ⟨e, he, hin⟩ := List.mem_flatMap.1 hin
      have ge := g1 e he
      unfold eventColors at ge
      split at ge
      · obtain ⟨g', g1', g2'⟩ := collect_ok.1 ge
        rw [g2'] at hin
        obtain ⟨t, ht, hin⟩ := List.mem_flatMap.1 hin
        have gt := g1' t ht
        unfold colorTag at gt
        obtain ⟨g'', g1'', g2''⟩ := collect_ok.1 gt
        rw [g2''] at hin
        obtain ⟨p, hp, hin⟩ := List.mem_flatMap.1 hin
        have gp := g1'' p hp
        unfold colorPart at gp
        split at gp
        · injection gp with gp; rw [← gp] at hin; cases hin
        · split at gp
          · injection gp with gp
            rw [← gp] at hin
            have := mem_if_one hin
            simp at this
          · injection gp with gp; rw [← gp] at hin; cases hin
          · cases gp
          · cases gp
      · injection ge with ge; rw [← ge] at hin; cases hin
      · cases ge
    simp only [hy, or_false, List.mem_flatMap]
    have one : ∀ (f v : List Char), (⟨.error, "invalid-color".toList, .styleColor field value⟩ : Issue) ∈ styleColor f v ↔
        (field, value) = (f, v) ∧ Color.parseBgrColor value = none := by
      intro f v
      unfold styleColor
      by_cases hn : Color.parseBgrColor v = none
      · rw [if_pos (by simp [hn])]
        simp only [List.mem_singleton, Issue.mk.injEq, Msg.styleColor.injEq, true_and, Prod.mk.injEq]
        constructor
        · rintro ⟨rfl, rfl⟩; exact ⟨⟨rfl, rfl⟩, hn⟩
        · exact fun h => h.1
      · rw [if_neg (by simpa using hn)]
        constructor
        · intro h; cases h
        · rintro ⟨h1, h2⟩
          injection h1 with _ h1
          rw [h1] at h2
          exact absurd h2 hn
    constructor
    · rintro ⟨s, hs', hin⟩
      refine ⟨s, hs', ?_⟩
      unfold styleColors at hin
      simp only [List.mem_append, one] at hin
      rcases hin with ((⟨h1, h2⟩ | ⟨h1, h2⟩) | ⟨h1, h2⟩) | ⟨h1, h2⟩ <;> exact ⟨by rw [h1]; simp [colours], h2⟩
    · rintro ⟨s, hs', hin, h2⟩
      refine ⟨s, hs', ?_⟩
      unfold styleColors
      simp only [List.mem_append, one]
      unfold colours at hin
      simp only [List.mem_cons, List.not_mem_nil, or_false] at hin
      rcases hin with h1 | h1 | h1 | h1
      · exact .inl (.inl (.inl ⟨h1, h2⟩))
      · exact .inl (.inl (.inr ⟨h1, h2⟩))
      · exact .inl (.inr ⟨h1, h2⟩)
      · exact .inr ⟨h1, h2⟩

/-- **C82, characters.** Control characters other than line breaks and tabs are reported exactly if a text has one; the
replacement character likewise. -/
theorem C82_characters {alone child : Style → Bool} {secs : List Parser.Section} {ev : List Event} {l : List Issue}
    (he : FirstEvents secs ev) (h : lint alone child Config.default secs = .ok l) :
    ((⟨.warning, "encoding".toList, .control⟩ : Issue) ∈ l ↔
      ∃ e ∈ ev, ∃ c ∈ e.text, Control c ∧ c ≠ '\n' ∧ c ≠ '\r' ∧ c ≠ '\t') ∧
    ((⟨.warning, "encoding".toList, .replacement⟩ : Issue) ∈ l ↔ ∃ e ∈ ev, Char.ofNat 0xFFFD ∈ e.text) := by
  obtain ⟨inf, _, h2⟩ := lint_rule h
  have h3 := h2 "encoding".toList (.ok (encodingRule (firstEvents secs) (firstInfo secs))) (by simp [allRules])
  rw [firstEvents_spec he] at h3
  injection h3 with h3
  have hm : ∀ s m, (⟨s, "encoding".toList, m⟩ : Issue) ∈ l ↔ (⟨s, "encoding".toList, m⟩ : Issue) ∈ ofRule "encoding".toList l := by
    intro s m
    unfold ofRule
    rw [List.mem_filter]
    simp
  have hi : ∀ f : Str × Str, ∀ i ∈ infoEncoding f, i = ⟨.warning, "encoding".toList, .infoControl f.1⟩ := by
    intro f i hi
    unfold infoEncoding at hi
    exact mem_if_one hi
  have hc : ∀ c : Char, isControl c = true ↔ Control c := by
    intro c
    unfold isControl Control
    simp
  constructor
  · rw [hm, ← h3]
    unfold encodingRule
    rw [List.mem_append, List.mem_flatMap, List.mem_flatMap]
    constructor
    · rintro (⟨e, hee, hin⟩ | ⟨f, _, hin⟩)
      · refine ⟨e, hee, ?_⟩
        unfold eventEncoding at hin
        simp only [List.mem_append] at hin
        rcases hin with (hin | hin) | hin
        · by_cases ha : e.text.any (fun c => isControl c && c ≠ '\n' && c ≠ '\r' && c ≠ '\t') = true
          · obtain ⟨c, hc1, hc2⟩ := List.any_eq_true.1 ha
            simp only [Bool.and_eq_true, decide_eq_true_eq] at hc2
            exact ⟨c, hc1, (hc c).1 hc2.1.1.1, hc2.1.1.2, hc2.1.2, hc2.2⟩
          · rw [if_neg ha] at hin; cases hin
        · have := mem_if_one hin; simp at this
        · have := mem_if_one hin; simp at this
      · have := hi f _ hin; simp at this
    · rintro ⟨e, hee, c, hc1, hc2, n1, n2, n3⟩
      refine .inl ⟨e, hee, ?_⟩
      unfold eventEncoding
      rw [if_pos (List.any_eq_true.2 ⟨c, hc1, by simp [(hc c).2 hc2, n1, n2, n3]⟩)]
      exact List.mem_append_left _ (List.mem_append_left _ (List.mem_singleton.2 rfl))
  · rw [hm, ← h3]
    unfold encodingRule
    rw [List.mem_append, List.mem_flatMap, List.mem_flatMap]
    have hr : ∀ t : Str, t.contains '�' = true ↔ Char.ofNat 0xFFFD ∈ t := by
      intro t
      rw [List.contains_iff_mem]
    constructor
    · rintro (⟨e, hee, hin⟩ | ⟨f, _, hin⟩)
      · refine ⟨e, hee, ?_⟩
        unfold eventEncoding at hin
        simp only [List.mem_append] at hin
        rcases hin with (hin | hin) | hin
        · have := mem_if_one hin; simp at this
        · by_cases ha : e.text.contains '�' = true
          · exact (hr _).1 ha
          · rw [if_neg ha] at hin; cases hin
        · have := mem_if_one hin; simp at this
      · have := hi f _ hin; simp at this
    · rintro ⟨e, hee, hin⟩
      refine .inl ⟨e, hee, ?_⟩
      unfold eventEncoding
      rw [if_pos ((hr _).2 hin)]
      exact List.mem_append_left _ (List.mem_append_right _ (List.mem_singleton.2 rfl))

/-- **C82, overlaps (partial).** If all times can be read and every event ends after its start, then each pair of events
that are shown together is reported exactly once, with its times, and nothing else.  (Missing: events of no duration, and
unreadable times; see `C82_overlap_violated`.) -/
theorem C82_overlap_partial {alone child : Style → Bool} {secs : List Parser.Section} {ev : List Event} {l : List Issue}
    (he : FirstEvents secs ev) (h : lint alone child Config.default secs = .ok l) (iv : List (Nat × Nat)) (hl : ev.length = iv.length)
    (ht : ∀ (i : Nat) (e : Event) (p : Nat × Nat), ev[i]? = some e → iv[i]? = some p →
      TimeText e.start p.1 ∧ TimeText e.stop p.2 ∧ p.1 < p.2 ∧ p.2 < 2 ^ 32) :
    ∃ r : List (Nat × Nat), r.Nodup ∧ (∀ i j, (i, j) ∈ r → (j, i) ∉ r) ∧
      (∀ i j, ((i, j) ∈ r ∨ (j, i) ∈ r) ↔ i ≠ j ∧ ∃ a b, iv[i]? = some a ∧ iv[j]? = some b ∧ Ov.Meet a b) ∧
      (ofRule "timing-overlap".toList l).map some = r.map (overlapOf ev) := by
  obtain ⟨inf, _, h2⟩ := lint_rule h
  have h3 := h2 "timing-overlap".toList (overlapRule (firstEvents secs)) (by simp [allRules])
  rw [firstEvents_spec he] at h3
  have hpos : ∀ p ∈ iv, p.1 < p.2 := by
    intro p hp
    obtain ⟨i, hi⟩ := List.mem_iff_getElem?.1 hp
    have hlt : i < ev.length := by
      rw [hl]
      exact (List.getElem?_eq_some_iff.1 hi).1
    exact (ht i _ p (List.getElem?_eq_getElem hlt) hi).2.2.1
  obtain ⟨r, r1, r2, r3, r4⟩ := C22_exact_partial iv hpos
  have hta : timesAll ev = .ok iv := by
    refine timesAll_ok hl (fun i e p h1 h2 => ?_)
    obtain ⟨a, b, c, d⟩ := ht i e p h1 h2
    exact ⟨⟨a, by omega⟩, b, d⟩
  have hlt : ∀ p ∈ r, p.1 < ev.length ∧ p.2 < ev.length := by
    intro p hp
    obtain ⟨_, a, b, ha, hb, _⟩ := (r4 p.1 p.2).1 (.inl hp)
    rw [hl]
    exact ⟨(List.getElem?_eq_some_iff.1 ha).1, (List.getElem?_eq_some_iff.1 hb).1⟩
  obtain ⟨out, o1, o2⟩ := overlapIssue_ok hlt
  refine ⟨r, r2, r3, r4, ?_⟩
  rw [← o2]
  unfold overlapRule at h3
  by_cases hs : ev.length < 2
  · rw [if_pos hs] at h3
    injection h3 with h3
    have hr : r = [] := by
      cases hr : r with
      | nil => rfl
      | cons p t =>
        have hp : p ∈ r := by rw [hr]; simp
        have := hlt p hp
        have := ((r4 p.1 p.2).1 (.inl hp)).1
        omega
    rw [hr] at o1
    injection o1 with o1
    rw [← h3, o1]
  · rw [if_neg hs, hta] at h3
    simp only at h3
    rw [r1] at h3
    simp only at h3
    rw [o1] at h3
    injection h3 with h3
    rw [h3]

/-- A script for the examples: two styles, one of which has a bad colour, and four events. -/
def lintSections : List Parser.Section :=
  [.styles [lintStyle "Default" none "20" "&H00FFFFFF", lintStyle "Sign" none "20" "#FFF"],
   .events [lintEvent .dialogue "0:00:01.00" "0:00:06.00" "Default" "One", lintEvent .dialogue "0:00:05.00" "0:00:05.00" "Sign" "T\u0007wo",
     lintEvent .dialogue "0:00:04.00" "0:00:10.00" "Other" "Three", lintEvent .dialogue "x" "0:00:10.00" "Default" "Four"]]

example : FirstEvents lintSections
    [(lintEvent .dialogue "0:00:01.00" "0:00:06.00" "Default" "One").1, (lintEvent .dialogue "0:00:05.00" "0:00:05.00" "Sign" "T\u0007wo").1,
     (lintEvent .dialogue "0:00:04.00" "0:00:10.00" "Other" "Three").1, (lintEvent .dialogue "x" "0:00:10.00" "Default" "Four").1] :=
  ⟨[_], _, [], rfl, by simp, rfl⟩

example : FirstStyles lintSections [(lintStyle "Default" none "20" "&H00FFFFFF").1, (lintStyle "Sign" none "20" "#FFF").1] :=
  ⟨[], _, [_], rfl, by simp, rfl⟩

example : lint (fun _ => true) (fun _ => true) Config.default lintSections = .ok
    [⟨.warning, "timing-overlap".toList, .overlapUnknown⟩,
     ⟨.error, "negative-duration".toList, .duration "0:00:05.00".toList "0:00:05.00".toList⟩,
     ⟨.error, "invalid-color".toList, .styleColor "primary".toList "#FFF".toList⟩,
     ⟨.error, "invalid-color".toList, .styleColor "secondary".toList "#FFF".toList⟩,
     ⟨.error, "invalid-color".toList, .styleColor "outline".toList "#FFF".toList⟩,
     ⟨.error, "invalid-color".toList, .styleColor "back".toList "#FFF".toList⟩,
     ⟨.error, "missing-style".toList, .style "Other".toList⟩,
     ⟨.warning, "encoding".toList, .control⟩,
     ⟨.hint, "accessibility".toList, .short 0⟩] := by decide +kernel

/-- A style resolves on its own if it has a font size, and with a parent always. -/
def hasSize (s : Style) : Bool := s.fontsize ≠ []

/-- **C82, disagreement.** A style that takes its font size from its parent is reported as undefined. -/
theorem C82_inherited_violated :
    ¬ ∀ (secs : List Parser.Section) (ev : List Event) (st : List Style) (l : List Issue), FirstEvents secs ev → FirstStyles secs st →
        lint hasSize (fun _ => true) Config.default secs = .ok l →
        ∀ e ∈ ev, e.style ∈ st.map (·.name) → ⟨.error, "missing-style".toList, .style e.style⟩ ∉ l := by
  intro h
  refine h [.styles [lintStyle "Default" none "20" "&H00FFFFFF", lintStyle "Sign" (some "Default") "" "&H00FFFFFF"],
      .events [lintEvent .dialogue "0:00:01.00" "0:00:09.00" "Sign" "Exit"]] _ _
    [⟨.error, "missing-style".toList, .style "Sign".toList⟩] ⟨[_], _, [], rfl, by simp, rfl⟩ ⟨[], _, [_], rfl, by simp, rfl⟩
    (by decide +kernel) (lintEvent .dialogue "0:00:01.00" "0:00:09.00" "Sign" "Exit").1 (by simp) ?_ (by decide)
  decide

/-- **C82, disagreement.** A style defined in a second section of styles is reported as undefined. -/
theorem C82_second_section_violated :
    ¬ ∀ (secs : List Parser.Section) (ev : List Event) (l : List Issue), FirstEvents secs ev →
        lint (fun _ => true) (fun _ => true) Config.default secs = .ok l →
        ∀ e ∈ ev, (∃ st, .styles st ∈ secs ∧ e.style ∈ st.map (·.1.name)) → ⟨.error, "missing-style".toList, .style e.style⟩ ∉ l := by
  intro h
  refine h [.styles [lintStyle "Default" none "20" "&H00FFFFFF"], .styles [lintStyle "Sign" none "20" "&H00FFFFFF"],
      .events [lintEvent .dialogue "0:00:01.00" "0:00:09.00" "Sign" "Exit"]] _
    [⟨.error, "missing-style".toList, .style "Sign".toList⟩] ⟨[_, _], _, [], rfl, by simp, rfl⟩
    (by decide +kernel) (lintEvent .dialogue "0:00:01.00" "0:00:09.00" "Sign" "Exit").1 (by simp) ?_ (by decide)
  exact ⟨[lintStyle "Sign" none "20" "&H00FFFFFF"], by simp, by decide⟩

/-- **C82, disagreement.** Comment lines, which are never shown, are checked as if they were: their times are errors. -/
theorem C82_comment_violated :
    ¬ ∀ (secs : List Parser.Section) (ev : List Event) (l : List Issue), FirstEvents secs ev → (∀ e ∈ ev, e.kind = .comment) →
        lint (fun _ => true) (fun _ => true) Config.default secs = .ok l → ∀ i ∈ l, i.severity ≠ .error := by
  intro h
  have := h [.styles [lintStyle "Default" none "20" "&H00FFFFFF"],
      .events [lintEvent .comment "0:00:00.00" "0:00:00.00" "Default" "Signs below"]] _
    [⟨.error, "negative-duration".toList, .duration "0:00:00.00".toList "0:00:00.00".toList⟩,
     ⟨.hint, "accessibility".toList, .short 0⟩] ⟨[_], _, [], rfl, by simp, rfl⟩ (by decide) (by decide +kernel)
    _ (List.mem_cons_self ..)
  exact this rfl

/-- **C82, disagreement.** One unreadable time anywhere hides all overlaps. -/
theorem C82_overlap_violated :
    ¬ ∀ (secs : List Parser.Section) (ev : List Event) (l : List Issue), FirstEvents secs ev →
        lint (fun _ => true) (fun _ => true) Config.default secs = .ok l →
        ∀ (i j : Nat) (a b : Event) (s t s' t' : Nat), i ≠ j → ev[i]? = some a → ev[j]? = some b → TimeText a.start s → TimeText a.stop t →
          TimeText b.start s' → TimeText b.stop t' → Ov.Meet (s, t) (s', t') →
          ⟨.warning, "timing-overlap".toList, .overlap a.start a.stop b.start b.stop⟩ ∈ l ∨
          ⟨.warning, "timing-overlap".toList, .overlap b.start b.stop a.start a.stop⟩ ∈ l := by
  intro h
  have t1 : TimeText "0:00:01.00".toList 100 := ((C02_parse_accepts_iff _ _).1 (by decide +kernel)).1
  have t2 : TimeText "0:00:09.00".toList 900 := ((C02_parse_accepts_iff _ _).1 (by decide +kernel)).1
  have := h [.styles [lintStyle "Default" none "20" "&H00FFFFFF"],
      .events [lintEvent .dialogue "0:00:01.00" "0:00:09.00" "Default" "One", lintEvent .dialogue "0:00:01.00" "0:00:09.00" "Default" "Two",
        lintEvent .dialogue "1:00" "0:00:09.00" "Default" "Three"]] _
    [⟨.warning, "timing-overlap".toList, .overlapUnknown⟩] ⟨[_], _, [], rfl, by simp, rfl⟩ (by decide +kernel)
    0 1 _ _ 100 900 100 900 (by decide) rfl rfl t1 t2 t1 t2 ⟨100, by decide⟩
  revert this
  decide

/-- **C82, disagreement.** A bad colour in a tag is missed when the tag is numbered and written with a small `h`, or when its
value is not closed by `&`. -/
theorem C82_tag_colour_violated :
    lint (fun _ => true) (fun _ => true) Config.default [.styles [lintStyle "Default" none "20" "&H00FFFFFF"],
      .events [lintEvent .dialogue "0:00:01.00" "0:00:09.00" "Default" "{\\1c&HZZ&\\c&hZZ&}One"]] = .ok
      [⟨.error, "invalid-color".toList, .tagColor "1c".toList "ZZ".toList⟩, ⟨.error, "invalid-color".toList, .tagColor "c".toList "ZZ".toList⟩] ∧
    lint (fun _ => true) (fun _ => true) Config.default [.styles [lintStyle "Default" none "20" "&H00FFFFFF"],
      .events [lintEvent .dialogue "0:00:01.00" "0:00:09.00" "Default" "{\\1c&hZZ&\\c&HZZ}One"]] = .ok [] := by
  decide +kernel

/-- **C82, disagreement.** An override tag that does not exist is not reported. -/
theorem C82_unknown_tag_violated :
    lint (fun _ => true) (fun _ => true) Config.default [.styles [lintStyle "Default" none "20" "&H00FFFFFF"],
      .events [lintEvent .dialogue "0:00:01.00" "0:00:09.00" "Default" "{\\zzz9}One"]] = .ok [] := by
  decide +kernel

/-- **C82, disagreement.** An event shown for 4.99 seconds is reported as one too short to be read: hundredths of a second are
taken for milliseconds. -/
theorem C82_short_violated :
    lint (fun _ => true) (fun _ => true) Config.default [.styles [lintStyle "Default" none "20" "&H00FFFFFF"],
      .events [lintEvent .dialogue "0:00:01.00" "0:00:05.99" "Default" "One"]] =
      .ok [⟨.hint, "accessibility".toList, .short 499⟩] := by
  decide +kernel

/-- **C82, disagreement.** Linting can crash: a backslash followed by a letter outside ASCII, within the brackets of a tag. -/
theorem C82_total_violated :
    lint (fun _ => true) (fun _ => true) Config.default [.styles [lintStyle "Default" none "20" "&H00FFFFFF"],
      .events [lintEvent .dialogue "0:00:01.00" "0:00:09.00" "Default" "{\\t(0,1,\\é1)}One"]] = .panic := by
  decide +kernel

/-! ## C83: the configuration -/

/-- **C83.** Under any configuration linting reports those issues of the full report that the configuration lets through: of
the rules that are to run, at least as severe as asked, in the same order, and of these the first so many if there is a
limit. -/
theorem C83_config {alone child : Style → Bool} {secs : List Parser.Section} {all : List Issue}
    (h : lint alone child Config.default secs = .ok all) (c : Config) :
    lint alone child c secs = .ok (limited c.maxIssues (all.filter (fun i => decide (Allowed c i)))) := by
  unfold lint at h ⊢
  cases hi : infos (firstEvents secs) with
  | err => rw [hi] at h; cases h
  | panic => rw [hi] at h; cases h
  | ok inf =>
    rw [hi] at h
    simp only at h ⊢
    obtain ⟨a, h1, h2⟩ := default_gathered h
    rw [List.nil_append] at h2
    subst h2
    rw [runLoop_gathered (gathered_all (named_rules alone child secs inf) h1) [] (by simp; omega), List.nil_append]

/-- An issue that is reported comes from a rule that is to run, and is severe enough. -/
theorem C83_sound {alone child : Style → Bool} {secs : List Parser.Section} {all l : List Issue} {c : Config}
    (h : lint alone child Config.default secs = .ok all) (hl : lint alone child c secs = .ok l) (i : Issue) (hi : i ∈ l) :
    i ∈ all ∧ i.rule ∉ c.disabled ∧ (c.enabled = [] ∨ i.rule ∈ c.enabled) ∧
      severityNumber c.minSeverity ≤ severityNumber i.severity := by
  rw [C83_config h c] at hl
  injection hl with hl
  rw [← hl] at hi
  have hm : i ∈ all.filter (fun i => decide (Allowed c i)) := by
    unfold limited at hi
    by_cases h0 : c.maxIssues = 0
    · rwa [if_pos h0] at hi
    · rw [if_neg h0] at hi
      exact List.mem_of_mem_take hi
  obtain ⟨h1, h2⟩ := List.mem_filter.1 hm
  have h2 : Allowed c i := by simpa using h2
  exact ⟨h1, h2.1.1, h2.1.2, h2.2⟩

example : lint (fun _ => true) (fun _ => true) ⟨.error, 3, [], ["missing-style".toList]⟩ lintSections = .ok
    [⟨.error, "negative-duration".toList, .duration "0:00:05.00".toList "0:00:05.00".toList⟩,
     ⟨.error, "invalid-color".toList, .styleColor "primary".toList "#FFF".toList⟩,
     ⟨.error, "invalid-color".toList, .styleColor "secondary".toList "#FFF".toList⟩] := by decide +kernel

/-! ## C42: the verdict -/

theorem isError_level (s : Severity) : (⟨s.level, f⟩ : VIssue).isError = decide (Bad s) := by
  cases s <;> rfl

/-- **C42.** The verdict and the two counts always agree with the issues that are listed. -/
theorem C42_counts {alone child : Style → Bool} {c : VConfig} {content : Str} {r : Result} (h : fresh alone child c content = .ok r) :
    r.errors = (r.issues.filter (fun i => i.level = .error ∨ i.level = .critical)).length ∧
    r.warnings = (r.issues.filter (fun i => i.level = .warning)).length ∧
    (r.valid = true ↔ ∀ i ∈ r.issues, i.level ≠ .error ∧ i.level ≠ .critical) := by
  unfold fresh at h
  cases hp : Parser.parse content with
  | none => rw [hp] at h; cases h
  | some s =>
    rw [hp] at h
    simp only at h
    cases hl : lint alone child Config.default s.sections with
    | err => rw [hl] at h; cases h
    | panic => rw [hl] at h; cases h
    | ok l =>
      rw [hl] at h
      injection h with h
      subst h
      generalize report c (allIssues l content) = m
      have e : ∀ i : VIssue, i.isError = decide (i.level = .error ∨ i.level = .critical) := by
        intro i; unfold VIssue.isError; simp
      refine ⟨?_, rfl, ?_⟩
      · simp only [Result.of]
        congr 2
        funext i
        exact e i
      · simp only [Result.of, decide_eq_true_eq, List.length_eq_zero_iff, List.filter_eq_nil_iff]
        constructor
        · intro h i hi
          have := h i hi
          rw [e] at this
          simpa using this
        · intro h i hi
          rw [e]
          simpa using h i hi

/-- **C42, partial.** If errors are not below the threshold, and there are no more issues above it than the limit allows, the
verdict is right: the script is called valid exactly if linting it finds no error.  (The limit and the threshold can hide
errors: see `C42_limit_violated` and `C42_threshold_violated`.) -/
theorem C42_verdict_partial {alone child : Style → Bool} {c : VConfig} {content : Str} {d : Parser.Script} {l : List Issue}
    (hp : Parser.parse content = some d) (hl : lint alone child Config.default d.sections = .ok l)
    (ht : levelNumber c.threshold ≤ levelNumber .error) (hm : c.maxIssues = 0 ∨ l.length + 3 ≤ c.maxIssues) :
    ∃ r, fresh alone child c content = .ok r ∧ (r.valid = true ↔ ∀ i ∈ l, ¬ Bad i.severity) ∧
      r.errors = (l.filter (fun i => decide (Bad i.severity))).length := by
  refine ⟨_, by unfold fresh; rw [hp]; simp only; rw [hl], ?_⟩
  have hlen : (basicChecks content).length ≤ 3 := by
    unfold basicChecks
    simp only [List.length_append]
    have : ∀ (p : Prop) [Decidable p] (x : VIssue), (if p then [x] else []).length ≤ 1 := by
      intro p _ x
      by_cases hp : p <;> simp [hp]
    have h1 := this (content = []) ⟨.warning, .empty⟩
    have h2 := this ((!containsStr "[Script Info]".toList content) = true) ⟨.warning, .noInfo⟩
    have h3 := this ((!containsStr "[Events]".toList content) = true) ⟨.warning, .noEvents⟩
    omega
  have hrep : report c (allIssues l content) = (allIssues l content).filter (fun i => c.threshold.rank ≤ i.level.rank) := by
    unfold report
    simp only
    rw [if_neg]
    intro ⟨h0, hlt⟩
    have := List.length_filter_le (fun i : VIssue => decide (c.threshold.rank ≤ i.level.rank)) (allIssues l content)
    unfold allIssues at this hlt
    simp only [List.length_append, List.length_map] at this
    omega
  have hb : ∀ i ∈ basicChecks content, i.isError = false := by
    intro i hi
    unfold basicChecks at hi
    have : ∀ (p : Prop) [Decidable p] (x : VIssue), i ∈ (if p then [x] else []) → i = x := by
      intro p _ x h
      by_cases hp : p
      · rw [if_pos hp] at h; exact List.mem_singleton.1 h
      · rw [if_neg hp] at h; cases h
    rcases List.mem_append.1 hi with hi | hi
    · rcases List.mem_append.1 hi with hi | hi <;> rw [this _ _ hi] <;> rfl
    · rw [this _ _ hi]; rfl
  have hf : (((allIssues l content).filter (fun i => c.threshold.rank ≤ i.level.rank)).filter VIssue.isError).length =
      (l.filter (fun i => decide (Bad i.severity))).length := by
    rw [List.filter_filter]
    have e : ∀ i : VIssue, (i.isError && decide (c.threshold.rank ≤ i.level.rank)) = i.isError := by
      intro i
      cases hi : i.isError with
      | false => rfl
      | true =>
        rw [level_eq, level_eq]
        simp only [Bool.true_and, decide_eq_true_eq]
        have ht : levelNumber c.threshold ≤ 2 := ht
        unfold VIssue.isError at hi
        simp only [Bool.or_eq_true, decide_eq_true_eq] at hi
        have k1 : levelNumber Level.error = 2 := rfl
        have k2 : levelNumber Level.critical = 3 := rfl
        rcases hi with hi | hi
        · rw [hi]; omega
        · rw [hi]; omega
    simp only [e]
    unfold allIssues
    have e2 : (basicChecks content).filter (fun a => a.isError) = [] :=
      List.filter_eq_nil_iff.2 (fun i hi => by rw [hb i hi]; simp)
    rw [List.filter_append, e2, List.append_nil, List.filter_map, List.length_map]
    congr 2
    funext i
    simp only [Function.comp]
    exact isError_level i.severity
  rw [hrep]
  simp only [Result.of]
  rw [hf]
  refine ⟨?_, rfl⟩
  rw [decide_eq_true_eq, List.length_eq_zero_iff, List.filter_eq_nil_iff]
  constructor
  · intro h i hi; simpa using h i hi
  · intro h i hi; simpa using h i hi

/-- **C42 over histories.** Whatever was done with a validator before, what `validate` returns is the result, under the
present configuration, for a text with the same hash: either the text itself or one that was validated before.
Missing: that it is the text itself: two texts with one hash are confused (`C42_cache_violated`). -/
theorem C42_cache_partial (alone child : Style → Bool) (c : VConfig) (history : List Op) (now : Nat) (content : Str)
    {r : Result} {w : Validator} (h : (calls alone child (Validator.new c) history).validate alone child now content = .ok (r, w)) :
    ∃ content', Lint.hash content' = Lint.hash content ∧
      fresh alone child (calls alone child (Validator.new c) history).config content' = .ok r := by
  have hi : Inv alone child (Validator.new c) := by intro r hr; cases hr
  exact (validate_spec (calls_inv history hi) h).2.2

/-- **C42.** If no other text has the same hash, the result is that of the text itself. -/
theorem C42_fresh (alone child : Style → Bool) (c : VConfig) (history : List Op) (now : Nat) (content : Str)
    {r : Result} {w : Validator} (h : (calls alone child (Validator.new c) history).validate alone child now content = .ok (r, w))
    (hh : ∀ s, Lint.hash s = Lint.hash content → s = content) :
    fresh alone child (calls alone child (Validator.new c) history).config content = .ok r := by
  obtain ⟨s, h1, h2⟩ := C42_cache_partial alone child c history now content h
  rw [hh s h1] at h2
  exact h2

/-- **C42.** Forced validation never uses the cache. -/
theorem C42_force (alone child : Style → Bool) (v : Validator) (now : Nat) (content : Str)
    {r : Result} {w : Validator} (h : v.force alone child now content = .ok (r, w)) : fresh alone child v.config content = .ok r := by
  unfold Validator.force Validator.validate at h
  have hh : Validator.hit { v with cached := none } (Lint.hash content) now = false := by
    unfold Validator.hit; simp
  rw [hh, if_neg (by simp)] at h
  simp only at h
  cases hf : fresh alone child v.config content with
  | err => rw [hf] at h; cases h
  | panic => rw [hf] at h; cases h
  | ok r' =>
    rw [hf] at h
    injection h with h
    injection h with h1
    rw [h1]

/-- **C42, the interval.** With the default configuration, a text that was just checked is checked again exactly when half a second has
passed since; until then the earlier result is given, whatever was done before. -/
theorem C42_interval (alone child : Style → Bool) {v v' w : Validator} {t t' : Nat} {content : Str} {r r' : Result}
    (hc : v.config = VConfig.default) (h : v.force alone child t content = .ok (r, v'))
    (h' : v'.validate alone child t' content = .ok (r', w)) : r' = r ∧ w.last = some (if t' - t < 500 then t else t') := by
  have hf := C42_force alone child v t content h
  have hv : v' = { v with cached := some r, hash := Lint.hash content, last := some t } := by
    unfold Validator.force Validator.validate at h
    rw [show Validator.hit { v with cached := none } (Lint.hash content) t = false by unfold Validator.hit; simp, if_neg (by simp)] at h
    simp only [hf] at h
    injection h with h
    injection h with _ h2
    exact h2.symm
  subst hv
  unfold Validator.validate at h'
  simp only [Validator.hit, hc, hf] at h'
  by_cases hlt : t' - t < 500
  · have : t' - t < VConfig.default.interval := hlt
    simp [this] at h'
    obtain ⟨rfl, rfl⟩ := h'
    simp [hlt]
  · have : ¬ t' - t < VConfig.default.interval := hlt
    rw [hc] at hf
    simp [this, hf] at h'
    obtain ⟨rfl, rfl⟩ := h'
    simp [hlt]

example : ∃ r v', (Validator.new VConfig.default).force (fun _ => true) (fun _ => true) 7 "[Script Info]\n".toList = .ok (r, v') ∧
    v'.last = some 7 := ⟨_, _, rfl, rfl⟩

/-- A script without events of its own. -/
def harmless : Str := "[Script Info]\n[Events]\n; OPupue75XqF".toList

/-- A script with an event of no duration, in a style that does not exist. -/
def faulty : Str := "[Script Info]\n[Events]\nDialogue: 0,0:00:00.00,0:00:00.00,Default,,0,0,0,,7QgLn9TBknL".toList

example : ∃ d l, Parser.parse faulty = some d ∧ lint (fun _ => true) (fun _ => true) Config.default d.sections = .ok l ∧ l.length = 3 ∧
    ¬ ∀ i ∈ l, ¬ Bad i.severity :=
  ⟨_, _, rfl, rfl, by decide +kernel, by decide +kernel⟩

/-- **C42, disagreement.** The cache takes two different texts for the same: a script with errors is called valid. -/
theorem C42_cache_violated :
    ¬ ∀ (content : Str) (history : List Op) (now : Nat) (r : Result) (w : Validator),
        (calls (fun _ => true) (fun _ => true) (Validator.new VConfig.default) history).validate (fun _ => true) (fun _ => true) now content = .ok (r, w) →
        fresh (fun _ => true) (fun _ => true) VConfig.default content = .ok r := by
  intro h
  have h1 : call (fun _ => true) (fun _ => true) (Validator.new VConfig.default) (.validate 0 harmless) =
      (some ⟨[], true, 0, 0⟩, ⟨VConfig.default, some ⟨[], true, 0, 0⟩, Lint.hash harmless, some 0⟩) := by decide +kernel
  have h2 : Lint.hash harmless = Lint.hash faulty := by decide +kernel
  have h3 := h faulty [.validate 0 harmless] 1 ⟨[], true, 0, 0⟩ ⟨VConfig.default, some ⟨[], true, 0, 0⟩, Lint.hash harmless, some 0⟩ (by
    rw [calls, h1, calls]
    unfold Validator.validate Validator.hit
    rw [h2]
    simp [VConfig.default])
  have h4 : fresh (fun _ => true) (fun _ => true) VConfig.default faulty ≠ .ok ⟨[], true, 0, 0⟩ := by decide +kernel
  exact h4 h3

/-- Fifteen events shown at the same time, and one that ends before its start. -/
def crowded : Str :=
  "[Script Info]\n[V4+ Styles]\nStyle: D,A,9,&H0,&H0,&H0,&H0,0,0,0,0,100,100,0,0,1,2,2,2,9,9,9,1\n[Events]\n".toList ++
  (List.replicate 15 "Dialogue: 0,0:00:01.00,0:00:09.00,D,,0,0,0,,a\n".toList).flatten ++
  "Dialogue: 0,0:00:20.00,0:00:10.00,D,,0,0,0,,b\n".toList

/-- **C42, disagreement.** With the default configuration a script with an error is called valid, because only the first
hundred issues are looked at. -/
theorem C42_limit_violated :
    ¬ ∀ (content : Str) (d : Parser.Script) (l : List Issue) (r : Result), Parser.parse content = some d →
        lint (fun _ => true) (fun _ => true) Config.default d.sections = .ok l →
        fresh (fun _ => true) (fun _ => true) VConfig.default content = .ok r → r.valid = true → ∀ i ∈ l, ¬ Bad i.severity := by
  intro h
  have hp : (Parser.parse crowded).isSome = true := by decide +kernel
  obtain ⟨d, hd⟩ := Option.isSome_iff_exists.1 hp
  have key : (match Parser.parse crowded with
    | some d => (match lint (fun _ => true) (fun _ => true) Config.default d.sections with
      | .ok l => l.any (fun i => decide (Bad i.severity))
      | _ => false)
    | none => false) = true := by decide +kernel
  have key2 : (match fresh (fun _ => true) (fun _ => true) VConfig.default crowded with
    | .ok r => r.valid
    | _ => false) = true := by decide +kernel
  rw [hd] at key
  simp only at key
  cases hl : lint (fun _ => true) (fun _ => true) Config.default d.sections with
  | err => rw [hl] at key; cases key
  | panic => rw [hl] at key; cases key
  | ok l =>
    rw [hl] at key
    simp only at key
    cases hf : fresh (fun _ => true) (fun _ => true) VConfig.default crowded with
    | err => rw [hf] at key2; cases key2
    | panic => rw [hf] at key2; cases key2
    | ok r =>
      rw [hf] at key2
      simp only at key2
      obtain ⟨i, hi, hb⟩ := List.any_eq_true.1 key
      exact h crowded d l r hd hl hf key2 i hi (by simpa using hb)

/-- **C42, disagreement.** With the threshold at critical, every script is called valid, for linting never calls an issue
critical. -/
theorem C42_threshold_violated :
    (fresh (fun _ => true) (fun _ => true) ⟨500, 100, .critical⟩ faulty) = .ok ⟨[], true, 0, 0⟩ ∧
    ∃ r, fresh (fun _ => true) (fun _ => true) ⟨500, 100, .info⟩ faulty = .ok r ∧ r.valid = false := by
  refine ⟨by decide +kernel, ⟨[⟨.error, .lint "negative-duration".toList (.duration "0:00:00.00".toList "0:00:00.00".toList)⟩,
    ⟨.error, .lint "missing-style".toList (.style "Default".toList)⟩, ⟨.info, .lint "accessibility".toList (.short 0)⟩],
    false, 0, 2⟩, by decide +kernel, rfl⟩

end Verif.Props
