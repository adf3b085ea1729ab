import Verif.Lemmas.GenScript
import Verif.Props.Color
import Verif.Props.Update
/-!
# C148 — generated scripts
-/
namespace Verif.Props.Generators
open Verif Verif.Generators
open Verif.Ast (Event Style)
open Verif.Parser (parse)
open Verif.Spec.EventCmd (Trimmed)
open Verif.Spec.Script
open Verif.Spec.RoundTrip
open Verif.Spec (TimeText)
open Verif.Spec.Generators

/-- **C148, partial.** A generated script of at most 50 MiB, whose title is one line without blanks around it, can be
parsed: it has exactly the six properties, the styles asked for (each with its number, its size and its font) and the
events asked for — 25 seconds every 30 seconds, each showing its own number in the text of its level of complexity, with
every tag hidden — and nothing unknown.

Missing: titles with blanks around them (which lose them) and colours and references to styles, where it fails (below). -/
theorem C148_generate_partial {g : Gen} (ht : Trimmed g.title ∧ '\n' ∉ g.title) (hsize : size (generate g) ≤ 50 * 1024 * 1024) :
    ∃ s st ev, parse (generate g) = some s ∧ s.sections.map content = [.info (properties g.title), .styles st, .events ev] ∧
      unknowns s.issues = [] ∧
      st.length = g.styles ∧ (∀ i x, st[i]? = some x → Numbers i x) ∧
      ev.length = g.events ∧ ∀ i x, ev[i]? = some x → Numbered g.level i x := by
  obtain ⟨s, h1, h2, h3⟩ := generate_parsed ht hsize
  refine ⟨s, _, _, h1, h2, h3, by simp, ?_, by simp, ?_⟩
  · intro i x hx
    rw [List.getElem?_map, Option.map_eq_some_iff] at hx
    obtain ⟨j, hj, rfl⟩ := hx
    obtain ⟨_, hj⟩ := List.getElem?_eq_some_iff.1 hj
    rw [List.getElem_range] at hj
    subst hj
    exact ⟨rfl, by show Nat.toDigits 10 _ = Nat.toDigits 10 _; rw [Nat.mul_comm], rfl⟩
  · intro i x hx
    rw [List.getElem?_map, Option.map_eq_some_iff] at hx
    obtain ⟨j, hj, rfl⟩ := hx
    obtain ⟨hlt, hj⟩ := List.getElem?_eq_some_iff.1 hj
    rw [List.length_range] at hlt
    rw [List.getElem_range] at hj
    subst hj
    have hl := generate_large g
    refine ⟨rfl, ?_, ?_, (text_fine g.level i).visible⟩
    · rw [Nat.mul_comm]; exact formatTime_text (by omega)
    · rw [Nat.mul_comm]; exact formatTime_text (by omega)

/-- **C148.** Each of the nine presets asked for `n` events gives a script of exactly `n` events of its kind. -/
theorem C148_preset (l : Level) (n : Nat) (hsize : size (generate (preset l n)) ≤ 50 * 1024 * 1024) :
    ∃ s st ev, parse (generate (preset l n)) = some s ∧ s.sections.map content = [.info (properties (preset l n).title), .styles st, .events ev] ∧
      ev.length = n ∧ ∀ i x, ev[i]? = some x → Numbered l i x := by
  obtain ⟨s, st, ev, h1, h2, _, _, _, h3, h4⟩ := C148_generate_partial (g := preset l n)
    (by
      have ht : (preset l n).title = (preset l 0).title := by cases l <;> rfl
      rw [ht]
      cases l <;> exact ⟨trimmed_of (by decide), by decide⟩) hsize
  refine ⟨s, st, ev, h1, h2, ?_, ?_⟩
  · rw [h3]; cases l <;> rfl
  · have : (preset l n).level = l := by cases l <;> rfl
    rw [this] at h4
    exact h4

/-- The largest preset with ten events fits. -/
example : (preset .extreme 10).styles = 20 ∧ (preset .extreme 10).events = 10 ∧
    (Trimmed (preset .extreme 10).title ∧ '\n' ∉ (preset .extreme 10).title) ∧ size (generate (preset .extreme 10)) ≤ 50 * 1024 * 1024 :=
  ⟨rfl, rfl, ⟨trimmed_of (by decide), by decide⟩, by decide +kernel⟩

/-- What its third event shows. -/
example : shown .extreme 2 = "This is dialogue line number 3 with karaoke timing and complex animations".toList := by decide

/-- **C148, violated.** "Event start: i * 3 seconds apart", with "2.5 second duration": of the times of a script with two
events the second starts after thirty seconds and lasts for twenty-five. -/
theorem C148_apart_violated : ∃ s e f, parse (generate (preset .simple 2)) = some s ∧
    s.sections.flatMap (fun x => match content x with | .events l => l.map (fun e => (e.start, e.stop)) | _ => []) = [e, f] ∧
    TimeText e.1 0 ∧ TimeText f.1 3000 ∧ TimeText f.2 5500 ∧ f.1 ≠ "0:00:03.00".toList ∧ f.2 ≠ "0:00:05.50".toList := by
  have h := Verif.Props.of_parsed (src := generate (preset .simple 2)) (P := fun s => decide
    (s.sections.flatMap (fun x => match content x with | .events l => l.map (fun e => (e.start, e.stop)) | _ => []) =
      [("0:00:00.00".toList, "0:00:25.00".toList), ("0:00:30.00".toList, "0:00:55.00".toList)])) (by decide +kernel)
  obtain ⟨s, h1, h2⟩ := h
  exact ⟨s, _, _, h1, of_decide_eq_true h2, ((C02_parse_accepts_iff _ _).1 (by decide)).1, ((C02_parse_accepts_iff _ _).1 (by decide)).1,
    ((C02_parse_accepts_iff _ _).1 (by decide)).1, by decide, by decide⟩

/-- **C148, violated.** "Default" is the name of the first style, but with several styles the events of its turn refer to
`Style0`, which is no style of the script: in a script of moderate complexity already the first event does. -/
theorem C148_refs_violated : ∃ s, parse (generate (preset .moderate 1)) = some s ∧
    s.sections.flatMap (fun x => match content x with | .events l => l.map (·.style) | _ => []) = ["Style0".toList] ∧
    "Style0".toList ∉ s.sections.flatMap (fun x => match content x with | .styles l => l.map (·.name) | _ => []) := by
  have h := Verif.Props.of_parsed (src := generate (preset .moderate 1)) (P := fun s => decide
    (s.sections.flatMap (fun x => match content x with | .events l => l.map (·.style) | _ => []) = ["Style0".toList] ∧
    "Style0".toList ∉ s.sections.flatMap (fun x => match content x with | .styles l => l.map (·.name) | _ => []))) (by decide +kernel)
  obtain ⟨s, h1, h2⟩ := h
  exact ⟨s, h1, of_decide_eq_true h2⟩

/-- **C148, partial.** In a script with one style every event refers to it, and in one with several styles each event but
every so-manieth does to one of them, each in its turn.

Missing: with several styles, the events of the turn of the first one (above). -/
theorem C148_refs_partial {g : Gen} (ht : Trimmed g.title ∧ '\n' ∉ g.title) (hsize : size (generate g) ≤ 50 * 1024 * 1024)
    (h0 : 0 < g.styles) :
    ∃ s st ev, parse (generate g) = some s ∧ s.sections.map content = [.info (properties g.title), .styles st, .events ev] ∧
      ∀ i e, ev[i]? = some e → g.styles = 1 ∨ i % g.styles ≠ 0 → ∃ x, st[i % g.styles]? = some x ∧ e.style = x.name := by
  obtain ⟨s, h1, h2, _⟩ := generate_parsed ht hsize
  refine ⟨s, _, _, h1, h2, ?_⟩
  intro i e he hi
  rw [List.getElem?_map, Option.map_eq_some_iff] at he
  obtain ⟨j, hj, rfl⟩ := he
  obtain ⟨_, hj⟩ := List.getElem?_eq_some_iff.1 hj
  rw [List.getElem_range] at hj
  subst hj
  have hm : i % g.styles < g.styles := Nat.mod_lt _ h0
  refine ⟨styleOf (i % g.styles), by rw [List.getElem?_map, List.getElem?_range hm]; rfl, ?_⟩
  show styleAt g i = styleName (i % g.styles)
  unfold styleAt styleName
  rcases hi with hi | hi
  · rw [hi, if_neg (show ¬ 1 < 1 by omega), Nat.mod_one, if_pos rfl]
  · have h1 : 1 < g.styles := by
      rcases Nat.lt_or_ge 1 g.styles with h | h
      · exact h
      · have e : g.styles = 1 := by omega
        rw [e] at hi
        exact absurd (Nat.mod_one i) hi
    rw [if_pos h1, if_neg hi]

/-- Of the five styles of a script of moderate complexity the fourth event uses the fourth. -/
example : (preset .moderate 4).styles = 5 ∧ 3 % 5 ≠ 0 ∧ (∃ x : Style, ((List.range 5).map styleOf)[3]? = some x ∧ x.name = "Style3".toList) :=
  ⟨rfl, by decide, styleOf 3, rfl, by decide⟩

/-- **C148, violated.** The colours of a style are `i` times `&H111111`: from the seventeenth on (the largest preset has
twenty) they have seven digits and cannot be read. -/
theorem C148_colour_violated : ∃ s l x, parse (generate (preset .extreme 0)) = some s ∧
    s.sections.flatMap (fun x => match content x with | .styles l => l.map (·.primary) | _ => []) = l ∧ l[16]? = some x ∧
    x = "&H001111110&".toList ∧ Color.parseBgrColor x = none := by
  have h := Verif.Props.of_parsed (src := generate (preset .extreme 0)) (P := fun s => decide
    ((s.sections.flatMap (fun x => match content x with | .styles l => l.map (·.primary) | _ => []))[16]? = some "&H001111110&".toList)) (by decide +kernel)
  obtain ⟨s, h1, h2⟩ := h
  exact ⟨s, _, _, h1, rfl, of_decide_eq_true h2, rfl, by decide +kernel⟩

/-- **C148, partial.** The colours of the first sixteen styles are greys, each brighter than the one before, and opaque.

Missing: further styles (above). -/
theorem C148_colour_partial {g : Gen} (ht : Trimmed g.title ∧ '\n' ∉ g.title) (hsize : size (generate g) ≤ 50 * 1024 * 1024) :
    ∃ s st ev, parse (generate g) = some s ∧ s.sections.map content = [.info (properties g.title), .styles st, .events ev] ∧
      ∀ i x, st[i]? = some x → i < 16 → Color.parseBgrColor x.primary = some ⟨17 * i, 17 * i, 17 * i, 0⟩ ∧
        x.secondary = x.primary ∧ x.outlineColour = x.primary ∧ Color.parseBgrColor x.back = some ⟨0, 0, 0, 0⟩ := by
  obtain ⟨s, h1, h2, _⟩ := generate_parsed ht hsize
  refine ⟨s, _, _, h1, h2, ?_⟩
  intro i x hx hi
  rw [List.getElem?_map, Option.map_eq_some_iff] at hx
  obtain ⟨j, hj, rfl⟩ := hx
  obtain ⟨_, hj⟩ := List.getElem?_eq_some_iff.1 hj
  rw [List.getElem_range] at hj
  subst hj
  have h16 : ∀ k : Fin 16, Color.parseBgrColor (colour k) = some ⟨17 * k, 17 * k, 17 * k, 0⟩ := by decide +kernel
  have hb : Color.parseBgrColor "&H00000000&".toList = some ⟨0, 0, 0, 0⟩ := by decide
  exact ⟨h16 ⟨i, hi⟩, rfl, rfl, hb⟩

example : (styleOf 15).primary = "&H00FFFFFF&".toList ∧ (styleOf 1).primary = "&H00111111&".toList := by decide +kernel

/-- **C148, partial.** The script with problems, with up to 3600 events: one title, one style and the events asked for, half
a second every second, each tenth with an empty and an unknown tag and each seventh of the others with the heavy animation.

Missing: more than 3600 events, where it fails (below). -/
theorem C148_issues_partial {n : Nat} (hn : n ≤ 3600) (hsize : size (withIssues n) ≤ 50 * 1024 * 1024) :
    ∃ s st ev, parse (withIssues n) = some s ∧
      s.sections.map content = [.info [("Title".toList, "Test Script".toList)], .styles [st], .events ev] ∧
      unknowns s.issues = [] ∧ st.name = "Default".toList ∧ ev.length = n ∧ ∀ i x, ev[i]? = some x → Problem i x := by
  rw [withIssues_eq] at hsize ⊢
  obtain ⟨s, h1, h2, h3⟩ := other_parsed (by
    simp only [List.forall_mem_singleton]
    intro f hf
    rw [List.mem_singleton.1 hf]
    exact ⟨⟨by decide, by decide⟩, ⟨trimmed_of (by decide), trimmed_of (by decide)⟩, by decide, by decide, by decide, by decide⟩)
    issueStyle_fits (fun e he => by obtain ⟨i, _, rfl⟩ := List.mem_map.1 he; exact issueEvent_fits i) hsize
  refine ⟨s, _, _, h1, h2, h3, rfl, by simp, ?_⟩
  intro i x hx
  rw [List.getElem?_map, Option.map_eq_some_iff] at hx
  obtain ⟨j, hj, rfl⟩ := hx
  obtain ⟨hlt, hj⟩ := List.getElem?_eq_some_iff.1 hj
  rw [List.length_range] at hlt
  rw [List.getElem_range] at hj
  subst hj
  exact ⟨rfl, minuteTime_text (k := 0) (by omega) (by omega) (by decide), minuteTime_text (by omega) (by omega) (by decide), rfl, rfl⟩

example : size (withIssues 50) ≤ 50 * 1024 * 1024 ∧ problem 7 ≠ problem 8 ∧ problem 20 = problem 10 := by decide +kernel

/-- **C148, partial.** The script with overlaps, with up to 1798 events: the events asked for, five seconds every two
seconds; so each lasts into the next two, and into no other.

Missing: more events, where it fails (below). -/
theorem C148_overlap_partial {n : Nat} (hn : n ≤ 1798) (hsize : size (overlapping n) ≤ 50 * 1024 * 1024) :
    ∃ s st ev, parse (overlapping n) = some s ∧ s.sections.map content = [.styles [st], .events ev] ∧
      unknowns s.issues = [] ∧ st.name = "Default".toList ∧ ev.length = n ∧ (∀ i x, ev[i]? = some x → Overlaps i x) ∧
      ∀ i j x y, ev[i]? = some x → ev[j]? = some y → i < j →
        ∀ a b, TimeText x.stop a → TimeText y.start b → (b < a ↔ j ≤ i + 2) := by
  rw [overlapping_eq] at hsize ⊢
  obtain ⟨s, h1, h2, h3⟩ := other_parsed (pre := []) (by simp) overlapStyle_fits
    (fun e he => by obtain ⟨i, _, rfl⟩ := List.mem_map.1 he; exact overlapEvent_fits i) hsize
  have h4 : ∀ i x, ((List.range n).map overlapEvent)[i]? = some x → Overlaps i x ∧ i < n := by
    intro i x hx
    rw [List.getElem?_map, Option.map_eq_some_iff] at hx
    obtain ⟨j, hj, rfl⟩ := hx
    obtain ⟨hlt, hj⟩ := List.getElem?_eq_some_iff.1 hj
    rw [List.length_range] at hlt
    rw [List.getElem_range] at hj
    subst hj
    refine ⟨⟨rfl, ?_, ?_, rfl, rfl⟩, hlt⟩
    · have := minuteTime_text (s := i * 2) (k := 0) (f := ".00".toList) (by omega) (by omega) (by decide)
      rw [show 200 * i = 100 * (i * 2) + 0 by omega]; exact this
    · have := minuteTime_text (s := i * 2 + 5) (k := 0) (f := ".00".toList) (by omega) (by omega) (by decide)
      rw [show 200 * i + 500 = 100 * (i * 2 + 5) + 0 by omega]; exact this
  refine ⟨s, _, _, h1, h2, h3, rfl, by simp, fun i x hx => (h4 i x hx).1, ?_⟩
  intro i j x y hx hy hij a b ha hb
  obtain ⟨ox, hi⟩ := h4 i x hx
  obtain ⟨oy, hj⟩ := h4 j y hy
  have same : ∀ {t : List Char} {u v : Nat}, TimeText t u → TimeText t v → u < 2 ^ 32 → u = v := by
    intro t u v hu hv hlt
    have h1 := (C02_parse_accepts_iff t u).2 ⟨hu, hlt⟩
    have hu' := Time.rawValue_iff.2 hu
    have hv' := Time.rawValue_iff.2 hv
    rw [hu'] at hv'
    exact Option.some.inj hv'
  rw [← same ox.stop ha (by omega), ← same oy.start hb (by omega)]
  omega

example : size (overlapping 100) ≤ 50 * 1024 * 1024 ∧ 100 ≤ 1798 := by decide +kernel

/-- **C148, violated.** Both scripts count in minutes only: the event with the number 3600 of the first and the one with
the number 1800 of the second start at `0:60:00.00`, which is no time. -/
theorem C148_minutes_violated : (issueEvent 3600).start = "0:60:00.00".toList ∧ (overlapEvent 1800).start = "0:60:00.00".toList ∧
    ∀ v, ¬ TimeText "0:60:00.00".toList v := by
  refine ⟨by decide, by decide, fun v hv => ?_⟩
  have h := Time.rawValue_iff.2 hv
  exact absurd h (by rw [show Time.rawValue "0:60:00.00".toList = none by decide]; nofun)

end Verif.Props.Generators
