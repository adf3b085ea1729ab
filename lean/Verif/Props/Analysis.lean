import Verif.Lemmas.Analysis
import Verif.Props.Resolved
import Verif.Props.Lint
/-!
# C140 — the analysis of a whole script
-/
namespace Verif.Props.Analysis
open Verif Verif.Analysis Verif.Spec Verif.Spec.Analysis
open Verif.Parser (Section)
open Verif.Ast (Style Event)
open Verif.Resolved (Look)
open Verif.Spec.Resolved (StyleList InfoFields LastReadable Says Fits Scored)
open Verif.Color (parseBgrColor)

/-! ## A script to look at -/

/-- Reads whole numbers. -/
def plainNum (s : Str) : Option Rat := if s.all Char.isDigit then some (Nat.ofDigitChars 10 s 0 : Nat) else none

/-- Two styles, of which one is large, and four events: one with an animation, one of no duration, two shown with the first. -/
def script : List Section :=
  [.styles [lintStyle "Default" none "20" "&H00FFFFFF", lintStyle "Title" none "90" "&H00FFFFFF"],
   .events [lintEvent .dialogue "0:00:01.00" "0:00:09.00" "Default" "{\\t(\\fs40)}Exit",
     lintEvent .dialogue "0:00:05.00" "0:00:05.00" "Default" "No time",
     lintEvent .dialogue "0:00:02.00" "0:00:04.00" "Title" "Here",
     lintEvent .comment "0:00:03.00" "0:00:05.00" "Default" "A note"]]

/-! ## Events -/

/-- **C140, events.** The analysis has one entry for each event of the first section of events that has two readable times, the end
after the start, and a text that can be taken apart; the entries come in the order of the events, with the times and the text of
the event, and the points of its tags, capped at 10.  Without a section of events there is none. -/
theorem C140_events {num : Str → Option Rat} {child : Style → Bool} {secs : List Section} {a : Analysis}
    (h : analyze num child secs = .ok a) :
    (∀ ev, Spec.Lint.FirstEvents secs ev → Entries (fun t x => Override.analyze t = .ok x) ev a.infos) ∧
    ((∀ s ∈ secs, ∀ l, s ≠ .events l) → a.infos = []) := by
  obtain ⟨_, _, _, hi, _⟩ := analyze_ok h
  constructor
  · intro ev he
    rw [Lint.firstEvents_spec he] at hi
    exact infos_entries hi
  · intro hn
    have : Lint.firstEvents secs = [] := by
      clear h hi
      revert hn
      rename_i e1 _ e2
      clear e1 e2
      intro hn
      induction secs with
      | nil => rfl
      | cons s secs ih =>
        have ih := ih (fun t ht => hn t (List.mem_cons_of_mem _ ht))
        cases s with
        | events l => exact absurd rfl (hn _ (by simp) l)
        | _ => simpa [Lint.firstEvents] using ih
    rw [this] at hi
    injection hi with hi
    exact hi.symm

/-! ## Numbers -/

/-- **C140, numbers.** The summary gives the number of entries, the number of pairs of entries that are shown together at some
instant, and the number of entries with tags of more than 3 points. -/
theorem C140_counts {num : Str → Option Rat} {child : Style → Bool} {secs : List Section} {a : Analysis}
    (h : analyze num child secs = .ok a) :
    (summary a).events = a.infos.length ∧
    (summary a).overlaps = meetings (a.infos.map (fun i => (i.start, i.stop))) ∧
    (summary a).animations = (a.infos.filter (fun i => 3 < points i.text)).length := by
  obtain ⟨m, _, _, hi, _⟩ := analyze_ok h
  have he := infos_entries hi
  refine ⟨rfl, ?_, ?_⟩
  · show overlapping a = _
    unfold overlapping
    rw [← overlaps_meetings, List.map_map]
    · rfl
    · intro p hp
      obtain ⟨i, hi, rfl⟩ := List.mem_map.1 hp
      exact entries_proper he i hi
  · show complexAnimations a = _
    unfold complexAnimations
    congr 1
    generalize Lint.firstEvents secs = ev at he
    generalize a.infos = l at he
    induction he with
    | nil => rfl
    | @keep _ _ i _ _ _ h3 _ ih =>
      rw [List.filter_cons, List.filter_cons, ih, h3]
      by_cases hp : 3 < points i.text
      · rw [if_pos (by simp only [decide_eq_true_eq]; omega), if_pos (by simpa using hp)]
      · rw [if_neg (by simp only [decide_eq_true_eq]; omega), if_neg (by simpa using hp)]
    | skip _ _ ih => exact ih

/-! ## Styles -/

theorem looks_name {num : Str → Option Rat} {secs : List Section} {m : Map Str Look} (hr : Resolved.resolved num secs = some m) :
    ∀ k r, (k, r) ∈ m → r.name = k := by
  intro k r hm
  have hg := Map.get_of_mem (resolved_wf hr) hm
  cases hs : Resolved.firstStyles secs with
  | none =>
    unfold Resolved.resolved at hr
    rw [hs] at hr
    injection hr with hr
    subst hr
    cases hm
  | some st =>
    have hl : StyleList secs st := by
      clear hr hg hm
      induction secs with
      | nil => cases hs
      | cons s secs ih =>
        cases s with
        | styles l =>
          injection hs with hs
          exact ⟨[], l, secs, rfl, nofun, hs.symm⟩
        | _ =>
          obtain ⟨x, l, y, e1, e2, e3⟩ := ih (by simpa [Resolved.firstStyles] using hs)
          refine ⟨_ :: x, l, y, by rw [e1]; rfl, fun z hz => ?_, e3⟩
          rcases List.mem_cons.1 hz with rfl | hz
          · nofun
          · exact e2 z hz
    obtain ⟨m', h1, h2⟩ := Resolved.resolved_get (num := num) hl
    rw [hr] at h1
    injection h1 with h1
    subst h1
    obtain ⟨x, s, y, q, e, hn, hq, _, rfl⟩ := (h2 k r).1 hg
    have := (Resolved.fromStyle_iff.1 hq).1.name
    unfold Resolved.applyScaling
    split
    · show q.name = k
      rw [this, hn]
    · rw [this, hn]

/-- **C140, styles.** The style found for a name is what the analyzer of styles makes of it (C100): the last style of that name, in
the first section of styles, that can be resolved, scaled to the play resolution; and every name with such a style is found. -/
theorem C140_style {num : Str → Option Rat} {child : Style → Bool} {secs : List Section} {a : Analysis} {styles : List Style}
    {fields : List (Str × Str)} (h : analyze num child secs = .ok a) (hs : StyleList secs styles) (hf : InfoFields secs fields) :
    (∀ n r', resolveStyle a n = some r' → r'.name = n ∧ Scored r' ∧
      ∃ s r, LastReadable num parseBgrColor styles n s ∧ Says num parseBgrColor s r ∧ Fits fields r r') ∧
    ∀ n, (∃ s, LastReadable num parseBgrColor styles n s) → ∃ r', resolveStyle a n = some r' := by
  obtain ⟨m, hm, hl, _, _⟩ := analyze_ok h
  obtain ⟨m', h1, h2, h3⟩ := C100_analyzer_partial num secs styles fields hs hf
  rw [hm] at h1
  injection h1 with h1
  subst h1
  have e : ∀ n, resolveStyle a n = m.get n := fun n => by unfold resolveStyle; rw [hl]; exact find_get (looks_name hm) n
  refine ⟨fun n r' hr => ?_, fun n hn => ?_⟩
  · rw [e] at hr
    exact ⟨looks_name hm n r' (Map.mem_of_get hr), h2 n r' hr⟩
  · obtain ⟨r', hr⟩ := h3 n hn
    exact ⟨r', by rw [e]; exact hr⟩

/-- **C140, large fonts.** The summary gives the number of names whose style has a font larger than 72. -/
theorem C140_fonts {num : Str → Option Rat} {child : Style → Bool} {secs : List Section} {a : Analysis}
    (h : analyze num child secs = .ok a) (names : List Str) (hd : names.Nodup) (hn : ∀ n r, resolveStyle a n = some r → n ∈ names) :
    (summary a).fonts = (names.filter (fun n => match resolveStyle a n with
      | some r => decide (72 < r.fontSize)
      | none => false)).length := by
  obtain ⟨m, hm, hl, _, _⟩ := analyze_ok h
  have e : ∀ n, resolveStyle a n = m.get n := fun n => by unfold resolveStyle; rw [hl]; exact find_get (looks_name hm) n
  show largeFonts a = _
  unfold largeFonts
  rw [hl, List.filter_map, List.length_map, ← List.length_map (f := Prod.fst)]
  refine ((List.perm_ext_iff_of_nodup ?_ (List.Pairwise.filter _ hd)).2 (fun n => ?_)).length_eq
  · exact ((resolved_wf hm).sublist (List.Sublist.map _ List.filter_sublist))
  · rw [List.mem_map, List.mem_filter]
    constructor
    · rintro ⟨⟨k, r⟩, hr, rfl⟩
      obtain ⟨hr, hb⟩ := List.mem_filter.1 hr
      have hg := Map.get_of_mem (resolved_wf hm) hr
      refine ⟨hn k r (by rw [e]; exact hg), ?_⟩
      rw [e, hg]
      exact hb
    · rintro ⟨_, hb⟩
      rw [e] at hb
      cases hg : m.get n with
      | none => rw [hg] at hb; cases hb
      | some r =>
        rw [hg] at hb
        exact ⟨(n, r), List.mem_filter.2 ⟨Map.mem_of_get hg, hb⟩, rfl⟩

/-! ## The score -/

theorem fee_le {n hi a lo b : Nat} (h : b ≤ a) : fee n hi a lo b ≤ a := by
  unfold fee; split
  · omega
  · split <;> omega

theorem fee_mono {n m hi a lo b : Nat} (h : b ≤ a) (hn : n ≤ m) : fee n hi a lo b ≤ fee m hi a lo b := by
  unfold fee; split
  · rw [if_pos (by omega)]; omega
  · split
    · split
      · omega
      · rw [if_pos (by omega)]; omega
    · omega

theorem minus_fee (s n hi a lo b : Nat) : (if n > hi then s - a else if n > lo then s - b else s) = s - fee n hi a lo b := by
  unfold fee; split
  · rfl
  · split <;> rfl

theorem minus_fee_one (s n hi a : Nat) : (if n > hi then s - a else s) = s - fee n hi a hi a := by
  unfold fee; split <;> rfl

/-- **C140, score.** The score is 100 less what is taken off for the number of events, of overlaps, of animations and of large
fonts; it is at least 50; and a script that has not more of any of them never gets a lower one. -/
theorem C140_score (a b : Analysis) :
    (summary a).score + fees (summary a).events (summary a).overlaps (summary a).animations (summary a).fonts = 100 ∧
    50 ≤ (summary a).score ∧
    ((summary a).events ≤ (summary b).events → (summary a).overlaps ≤ (summary b).overlaps →
      (summary a).animations ≤ (summary b).animations → (summary a).fonts ≤ (summary b).fonts →
      (summary b).score ≤ (summary a).score) := by
  have key : ∀ e o n f, score e o n f + fees e o n f = 100 ∧ 50 ≤ score e o n f := by
    intro e o n f
    unfold score
    simp only [minus_fee]
    simp only [minus_fee_one]
    unfold fees
    have := fee_le (n := e) (hi := 1000) (a := 20) (lo := 500) (b := 10) (by omega)
    have := fee_le (n := o) (hi := 50) (a := 15) (lo := 20) (b := 8) (by omega)
    have := fee_le (n := n) (hi := 100) (a := 10) (lo := 50) (b := 5) (by omega)
    have := fee_le (n := f) (hi := 10) (a := 5) (lo := 10) (b := 5) (by omega)
    omega
  have mono : ∀ {e o n f e' o' n' f'}, e ≤ e' → o ≤ o' → n ≤ n' → f ≤ f' → fees e o n f ≤ fees e' o' n' f' := by
    intro e o n f e' o' n' f' h1 h2 h3 h4
    unfold fees
    have := fee_mono (hi := 1000) (a := 20) (lo := 500) (b := 10) (by omega) h1
    have := fee_mono (hi := 50) (a := 15) (lo := 20) (b := 8) (by omega) h2
    have := fee_mono (hi := 100) (a := 10) (lo := 50) (b := 5) (by omega) h3
    have := fee_mono (hi := 10) (a := 5) (lo := 10) (b := 5) (by omega) h4
    omega
  have ka := key (summary a).events (summary a).overlaps (summary a).animations (summary a).fonts
  have kb := key (summary b).events (summary b).overlaps (summary b).animations (summary b).fonts
  refine ⟨ka.1, ka.2, fun h1 h2 h3 h4 => ?_⟩
  have := mono h1 h2 h3 h4
  show score (summary b).events (summary b).overlaps (summary b).animations (summary b).fonts ≤
    score (summary a).events (summary a).overlaps (summary a).animations (summary a).fonts
  omega

/-- **C140, advice.** No advice is given exactly if there are at most 10 overlaps, 20 animations, 5 large fonts and 1000 events;
else it is about the first of these that is exceeded.  A script with performance issues — more than 20 taken off — always gets
advice. -/
theorem C140_advice (a : Analysis) :
    (recommendation (summary a) = none ↔
      (summary a).overlaps ≤ 10 ∧ (summary a).animations ≤ 20 ∧ (summary a).fonts ≤ 5 ∧ (summary a).events ≤ 1000) ∧
    (recommendation (summary a) = some .overlaps ↔ 10 < (summary a).overlaps) ∧
    (recommendation (summary a) = some .animations ↔ (summary a).overlaps ≤ 10 ∧ 20 < (summary a).animations) ∧
    (recommendation (summary a) = some .fonts ↔ (summary a).overlaps ≤ 10 ∧ (summary a).animations ≤ 20 ∧ 5 < (summary a).fonts) ∧
    (hasIssues (summary a) = true ↔ 20 < fees (summary a).events (summary a).overlaps (summary a).animations (summary a).fonts) ∧
    (hasIssues (summary a) = true → recommendation (summary a) ≠ none) := by
  have hs := (C140_score a a).1
  have hr : recommendation (summary a) = if (summary a).overlaps > 10 then some .overlaps
    else if (summary a).animations > 20 then some .animations else if (summary a).fonts > 5 then some .fonts
    else if (summary a).events > 1000 then some .split else none := rfl
  have hi : hasIssues (summary a) = true ↔ 20 < fees (summary a).events (summary a).overlaps (summary a).animations (summary a).fonts := by
    unfold hasIssues
    rw [decide_eq_true_eq]
    omega
  have hn : recommendation (summary a) = none ↔
      (summary a).overlaps ≤ 10 ∧ (summary a).animations ≤ 20 ∧ (summary a).fonts ≤ 5 ∧ (summary a).events ≤ 1000 := by
    rw [hr]
    split
    · simp; omega
    · split
      · simp; omega
      · split
        · simp; omega
        · split
          · simp; omega
          · simp; omega
  refine ⟨hn, ?_, ?_, ?_, hi, fun h e => ?_⟩
  · rw [hr]; split
    · simp; omega
    · split
      · simp; omega
      · split
        · simp; omega
        · split <;> simp <;> omega
  · rw [hr]; split
    · simp; omega
    · split
      · simp; omega
      · split
        · simp; omega
        · split <;> simp <;> omega
  · rw [hr]; split
    · simp; omega
    · split
      · simp; omega
      · split
        · simp; omega
        · split <;> simp <;> omega
  · obtain ⟨h1, h2, h3, h4⟩ := hn.1 e
    have := hi.1 h
    unfold fees fee at this
    rw [if_neg (show ¬ 1000 < _ by omega), if_neg (show ¬ 50 < _ by omega), if_neg (show ¬ 20 < _ by omega),
      if_neg (show ¬ 100 < _ by omega), if_neg (show ¬ 50 < _ by omega), if_neg (show ¬ 10 < _ by omega),
      if_neg (show ¬ 10 < _ by omega)] at this
    split at this <;> omega

/-! ## Issues -/

/-- **C140, issues.** The issues are those of the full lint report (C82), in the same order. -/
theorem C140_lint {num : Str → Option Rat} {child : Style → Bool} {secs : List Section} {a : Analysis}
    (h : analyze num child secs = .ok a) :
    Lint.lint (fun s => (Resolved.fromStyle num s).isSome) child Lint.Config.default secs = .ok a.issues := by
  obtain ⟨m, _, _, hi, hl⟩ := analyze_ok h
  unfold Lint.lint
  rw [hi]
  exact hl

/-- **C140, disagreement.** No script has critical issues, whatever is wrong with it: no rule gives that severity. -/
theorem C140_critical_violated (num : Str → Option Rat) (child : Style → Bool) (secs : List Section) (a : Analysis)
    (h : analyze num child secs = .ok a) : hasCritical a = false := by
  obtain ⟨m, _, _, hi, hl⟩ := analyze_ok h
  obtain ⟨all, h1, h2⟩ := Lint.default_gathered hl
  rw [List.nil_append] at h2
  subst h2
  unfold hasCritical
  rw [List.any_eq_false]
  intro i hi
  rw [decide_eq_true_eq]
  have key : ∀ (rules : List (Str × Outcome (List Lint.Issue))) (all : List Lint.Issue), Lint.gathered Lint.Config.default rules = .ok all →
      (∀ id l, (id, Outcome.ok l) ∈ rules → ∀ i ∈ l, i.severity ≠ .critical) → ∀ i ∈ all, i.severity ≠ .critical := by
    intro rules
    induction rules with
    | nil => intro all h _; injection h with h; subst h; nofun
    | cons p rest ih =>
      intro all h hc
      obtain ⟨id, r⟩ := p
      rw [Lint.gathered] at h
      split at h
      · refine Lint.calm_both h (fun l hl i hi => ?_) (fun l hl => ih l hl (fun id l hm => hc id l (List.mem_cons_of_mem _ hm)))
        cases r with
        | err => cases hl
        | panic => cases hl
        | ok x =>
          injection hl with hl
          subst hl
          exact hc id x (by simp) i (List.mem_filter.1 hi).1
      · exact ih all h (fun id l hm => hc id l (List.mem_cons_of_mem _ hm))
  exact key _ _ h1 (Lint.calm_rules _ child secs a.infos) i hi

/-! ## Instances and disagreements -/

/-- What can be compared of the result. -/
def sees (o : Outcome Analysis) : Option (Summary × Option Advice × List (Nat × Nat)) :=
  match o with
  | .ok a => some (summary a, recommendation (summary a), a.infos.map (fun i => (i.start, i.stop)))
  | _ => none

example : sees (analyze plainNum (fun _ => true) script) =
    some (⟨3, 3, 1, 1, 100⟩, none, [(100, 900), (200, 400), (300, 500)]) := by decide +kernel

/-- Whatever holds of what is seen of a result holds of the result. -/
theorem sees_some {o : Outcome Analysis} {s : Summary} {r : Option Advice} {l : List (Nat × Nat)} (h : sees o = some (s, r, l)) :
    ∃ a, o = .ok a ∧ summary a = s ∧ recommendation s = r ∧ a.infos.map (fun i => (i.start, i.stop)) = l := by
  cases o with
  | ok a =>
    simp only [sees, Option.some.injEq, Prod.mk.injEq] at h
    obtain ⟨rfl, rfl, rfl⟩ := h
    exact ⟨a, rfl, rfl, rfl, rfl⟩
  | err => cases h
  | panic => cases h

example : ∃ a, analyze plainNum (fun _ => true) script = .ok a ∧ (∃ r, resolveStyle a "Title".toList = some r) ∧
    a.infos.length = 3 ∧ a.issues ≠ [] ∧ hasCritical a = false := by
  obtain ⟨a, h1, h2, _⟩ := sees_some (show sees (analyze plainNum (fun _ => true) script) =
    some (⟨3, 3, 1, 1, 100⟩, none, [(100, 900), (200, 400), (300, 500)]) by decide +kernel)
  refine ⟨a, h1, ?_, congrArg Summary.events h2, fun he => ?_, C140_critical_violated _ _ _ _ h1⟩
  · obtain ⟨_, h3⟩ := C140_style (fields := []) h1 ⟨[], _, _, rfl, nofun, rfl⟩ (.inr ⟨rfl, by simp [script]⟩)
    refine h3 _ ⟨(lintStyle "Title" none "90" "&H00FFFFFF").1, [(lintStyle "Default" none "20" "&H00FFFFFF").1], [], rfl, rfl, ?_, nofun⟩
    have hs : (Resolved.fromStyle plainNum (lintStyle "Title" none "90" "&H00FFFFFF").1).isSome = true := by decide +kernel
    obtain ⟨r, hr⟩ := Option.isSome_iff_exists.1 hs
    exact ⟨r, (Resolved.fromStyle_iff.1 hr).1⟩
  · have := C140_lint h1
    rw [he] at this
    revert this
    decide +kernel

example : fees 1001 21 51 11 = 38 ∧ fees 1000 20 50 10 = 10 ∧ score 1001 21 51 11 = 62 ∧
    recommendation ⟨3, 10, 21, 0, 100⟩ = some .animations ∧ meetings [(0, 5), (5, 9), (3, 6)] = 2 := by decide

/-- **C140, disagreement.** The number of overlapping events is the number of pairs: four events shown together are reported as
six overlapping events. -/
theorem C140_overlaps_violated :
    ¬ ∀ (num : Str → Option Rat) (child : Style → Bool) (secs : List Section) (a : Analysis), analyze num child secs = .ok a →
        (summary a).overlaps ≤ (summary a).events := by
  intro h
  obtain ⟨a, h1, h2, _⟩ := sees_some (show sees (analyze plainNum (fun _ => true)
      [.events (List.replicate 4 (lintEvent .dialogue "0:00:01.00" "0:00:09.00" "Default" "Line"))]) =
    some (⟨4, 6, 0, 0, 100⟩, none, [(100, 900), (100, 900), (100, 900), (100, 900)]) by decide +kernel)
  have := h _ _ _ a h1
  rw [h2] at this
  exact absurd this (by decide)

/-- **C140, disagreement.** Events of a second section of events are not looked at. -/
theorem C140_second_section_violated :
    ¬ ∀ (num : Str → Option Rat) (child : Style → Bool) (secs : List Section) (a : Analysis), analyze num child secs = .ok a →
        ∀ l, .events l ∈ secs → l ≠ [] → (∀ e ∈ l, ∃ s t, Timed e.1 s t ∧ e.1.text = "Line".toList) → (summary a).events ≠ 0 := by
  intro h
  obtain ⟨a, h1, h2, _⟩ := sees_some (show sees (analyze plainNum (fun _ => true)
      [.events [], .events [lintEvent .dialogue "0:00:01.00" "0:00:09.00" "Default" "Line"]]) =
    some (⟨0, 0, 0, 0, 100⟩, none, []) by decide +kernel)
  refine h _ _ _ a h1 [lintEvent .dialogue "0:00:01.00" "0:00:09.00" "Default" "Line"] (by simp) (by simp) ?_ (by rw [h2])
  intro e he
  rw [List.mem_singleton.1 he]
  exact ⟨100, 900, ⟨((C02_parse_accepts_iff "0:00:01.00".toList 100).1 (by decide)).1,
    ((C02_parse_accepts_iff "0:00:09.00".toList 900).1 (by decide)).1, by decide⟩, rfl⟩

/-- **C140, disagreement.** Comment lines, which are never shown, are counted as events, and as overlapping. -/
theorem C140_comments_violated :
    ¬ ∀ (num : Str → Option Rat) (child : Style → Bool) (secs : List Section) (a : Analysis), analyze num child secs = .ok a →
        (∀ l, .events l ∈ secs → ∀ e ∈ l, e.1.kind = .comment) → (summary a).events = 0 ∧ (summary a).overlaps = 0 := by
  intro h
  obtain ⟨a, h1, h2, _⟩ := sees_some (show sees (analyze plainNum (fun _ => true)
      [.events (List.replicate 2 (lintEvent .comment "0:00:01.00" "0:00:09.00" "Default" "Line"))]) =
    some (⟨2, 1, 0, 0, 100⟩, none, [(100, 900), (100, 900)]) by decide +kernel)
  have := h _ _ _ a h1 (by
    intro l hl e he
    simp only [List.mem_singleton, Section.events.injEq] at hl
    subst hl
    rw [List.eq_of_mem_replicate he]
    rfl)
  rw [h2] at this
  exact absurd this (by decide)

/-- **C140, disagreement.** An event with four simple tags — bold, italic, underlined, struck out — is counted as a complex
animation, though nothing moves; an event that only fades in and out is not. -/
theorem C140_animations_violated :
    (∃ a, analyze plainNum (fun _ => true)
      [.events [lintEvent .dialogue "0:00:01.00" "0:00:09.00" "Default" "{\\b1\\i1\\u1\\s1}Line"]] = .ok a ∧ (summary a).animations = 1) ∧
    ∃ a, analyze plainNum (fun _ => true)
      [.events [lintEvent .dialogue "0:00:01.00" "0:00:09.00" "Default" "{\\fad(500,500)}Line"]] = .ok a ∧ (summary a).animations = 0 := by
  constructor
  · obtain ⟨a, h1, h2, _⟩ := sees_some (show sees (analyze plainNum (fun _ => true)
      [.events [lintEvent .dialogue "0:00:01.00" "0:00:09.00" "Default" "{\\b1\\i1\\u1\\s1}Line"]]) =
      some (⟨1, 0, 1, 0, 100⟩, none, [(100, 900)]) by decide +kernel)
    exact ⟨a, h1, by rw [h2]⟩
  · obtain ⟨a, h1, h2, _⟩ := sees_some (show sees (analyze plainNum (fun _ => true)
      [.events [lintEvent .dialogue "0:00:01.00" "0:00:09.00" "Default" "{\\fad(500,500)}Line"]]) =
      some (⟨1, 0, 0, 0, 100⟩, none, [(100, 900)]) by decide +kernel)
    exact ⟨a, h1, by rw [h2]⟩

end Verif.Props.Analysis
