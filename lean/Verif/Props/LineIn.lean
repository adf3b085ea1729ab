import Verif.Model.LineIn
import Verif.Props.Update
import Verif.Lemmas.Handlers
/-!
# C172 — a line parsed for a section
-/
namespace Verif.Props.LineIn
open Verif Verif.Ast Verif.Parser Verif.Update Verif.LineIn Verif.Spec.Update
open Verif.Spec.InfoCmd (Stripped)
open Verif.Spec.EventCmd (White)

theorem same {x y : Str} (h : Stripped x y) (h' : Stripped x x) : y = x := by
  rw [← Handlers.stripped_eq h, Handlers.stripped_eq h']

/-- **C172, partial.** A line without blanks around it, parsed for the events section of a script with a format line, gives the event that the
line is read as wherever it stands.

Missing: scripts without a format line (see `C172_format_violated`), blanks around the line (see `C172_blank_violated`). -/
theorem C172_event_partial (s : Script) (n : Nat) {line : Str} (ht : Stripped line line) (c : Content) :
    inSection s .events line n = .ok c ↔ s.eventsFmt ≠ none ∧ Reads s n line c ∧ ∃ e, c = .event e := by
  unfold inSection
  cases hf : s.eventsFmt with
  | none => exact ⟨fun h => (by cases h), fun h => absurd rfl h.1⟩
  | some f =>
    dsimp only
    constructor
    · intro h
      cases hp : parseEvent line f with
      | none => rw [hp] at h; cases h
      | some e =>
        rw [hp] at h
        cases h
        exact ⟨by simp, .event ht (by rw [hf]; exact hp), _, rfl⟩
    · rintro ⟨_, hr, e, rfl⟩
      cases hr with
      | event hx hp =>
        rw [same hx ht, hf] at hp
        have hp : parseEvent line f = some _ := hp
        rw [hp]
        rfl

/-- **C172, partial.** What follows `Style:`, without blanks around it, parsed for the styles section of a script with a format line, gives the
style that the whole line is read as.

Missing: as above, and the whole line (see `C172_style_violated`). -/
theorem C172_style_partial (s : Script) (n : Nat) {d : Str} (ht : Stripped d d) (hw : Stripped ("Style:".toList ++ d) ("Style:".toList ++ d)) (c : Content) :
    inSection s .styles d n = .ok c ↔ s.stylesFmt ≠ none ∧ Reads s n ("Style:".toList ++ d) c ∧ ∃ st, c = .style st := by
  unfold inSection
  cases hf : s.stylesFmt with
  | none => exact ⟨fun h => (by cases h), fun h => absurd rfl h.1⟩
  | some f =>
    dsimp only
    constructor
    · intro h
      cases hp : parseStyle d f with
      | none => rw [hp] at h; cases h
      | some st =>
        rw [hp] at h
        cases h
        exact ⟨by simp, .style hw ht (by rw [hf]; exact hp), _, rfl⟩
    · rintro ⟨_, hr, st, rfl⟩
      generalize hl : "Style:".toList ++ d = line at hr hw
      cases hr with
      | style hx hd hp =>
        have e := same hx hw
        rw [← hl] at e
        have e := List.append_cancel_left e
        subst e
        rw [same hd ht, hf] at hp
        have hp : parseStyle _ f = some _ := hp
        rw [hp]
        rfl

theorem white_colon {a : Str} (h : ∀ c ∈ a, White c) : ':' ∉ a := fun hm => by
  have := h _ hm
  unfold White at this
  revert this
  decide

theorem widen_left {a k k' : Str} (ha : ∀ c ∈ a, White c) (h : Stripped k k') : Stripped (a ++ k) k' := by
  obtain ⟨h1, x, y, rfl, hx, hy⟩ := h
  refine ⟨h1, a ++ x, y, by simp, ?_, hy⟩
  intro c hc
  rcases List.mem_append.1 hc with hc | hc
  · exact ha c hc
  · exact hx c hc

theorem widen_right {b v v' : Str} (hb : ∀ c ∈ b, White c) (h : Stripped v v') : Stripped (v ++ b) v' := by
  obtain ⟨h1, x, y, rfl, hx, hy⟩ := h
  refine ⟨h1, x, y ++ b, by simp, hx, ?_⟩
  intro c hc
  rcases List.mem_append.1 hc with hc | hc
  · exact hy c hc
  · exact hb c hc

/-- **C172.** Parsed for the script info section, a line with a colon is the field before the first colon with the value behind it, both
without the blanks around; so a line that is read as a field anyway gives that field. -/
theorem C172_field (s : Script) (n : Nat) (line : Str) :
    (∀ c, inSection s .info line n = .ok c ↔
      ∃ k v k' v', line = k ++ ':' :: v ∧ ':' ∉ k ∧ Stripped k k' ∧ Stripped v v' ∧ c = .field k' v') ∧
    (∀ k v, Reads s n line (.field k v) → inSection s .info line n = .ok (.field k v)) := by
  have key : ∀ c, inSection s .info line n = .ok c ↔
      ∃ k v k' v', line = k ++ ':' :: v ∧ ':' ∉ k ∧ Stripped k k' ∧ Stripped v v' ∧ c = .field k' v' := by
    intro c
    unfold inSection
    dsimp only
    constructor
    · intro h
      cases hs : splitOnce ':' line with
      | none => rw [hs] at h; cases h
      | some p =>
        obtain ⟨k, v⟩ := p
        rw [hs] at h
        cases h
        obtain ⟨e, hk⟩ := splitOnce_some hs
        exact ⟨k, v, _, _, e, hk, stripped_trim k, stripped_trim v, rfl⟩
    · rintro ⟨k, v, k', v', rfl, hk, h1, h2, rfl⟩
      rw [splitOnce_append _ hk]
      dsimp only
      rw [Handlers.stripped_eq h1, Handlers.stripped_eq h2]
  refine ⟨key, fun k v hr => ?_⟩
  rw [key]
  cases hr with
  | @field k0 v0 _ _ hl hk _ h1 h2 =>
    obtain ⟨_, a, b, e, ha, hb⟩ := hl
    refine ⟨a ++ k0, v0 ++ b, k, v, by rw [e]; simp, ?_, widen_left ha h1, widen_right hb h2, rfl⟩
    intro hm
    rcases List.mem_append.1 hm with hm | hm
    · exact white_colon ha hm
    · exact hk hm

/-- A script with short formats. -/
def short : Script := ⟨.ass4, [], [], some ["Name".toList, "Fontname".toList], some ["Style".toList, "Text".toList]⟩

/-- Such formats come from a text. -/
example : (parse "[V4+ Styles]\nFormat: Name, Fontname\n[Events]\nFormat: Style, Text\n".toList).any (fun s =>
    decide (s.stylesFmt = short.stylesFmt ∧ s.eventsFmt = short.eventsFmt)) = true := by decide +kernel

/-- A style and an event in these formats. -/
def plain : Event := eventOf .dialogue ["Style".toList, "Text".toList] ["A".toList, "hi".toList]

example : inSection short .events "Dialogue: A,hi".toList 3 = .ok (.event (plain, newSpan 3)) ∧
    Reads short 3 "Dialogue: A,hi".toList (.event (plain, newSpan 3)) := ⟨rfl, parseAuto_iff.1 rfl⟩

example : inSection short .info " a b : c:d ".toList 3 = .ok (.field "a b".toList "c:d".toList) := rfl

/-- **C172, disagreement.** Without a format line, lines that are read anyway (with the usual format) are refused for their section. -/
theorem C172_format_violated (s : Script) (he : s.eventsFmt = none) (hs : s.stylesFmt = none) (line : Str) (n : Nat) :
    inSection s .events line n = .error .missingFormat ∧ inSection s .styles line n = .error .missingFormat ∧
    ∃ e, Reads s n "Dialogue: 0,0:00:00.00,0:00:01.00,A,,0,0,0,,hi".toList (.event e) := by
  refine ⟨by unfold inSection; simp only [he], by unfold inSection; simp only [hs], ?_⟩
  exact ⟨_, .event (x := "Dialogue: 0,0:00:00.00,0:00:01.00,A,,0,0,0,,hi".toList)
    ((by decide : trim "Dialogue: 0,0:00:00.00,0:00:01.00,A,,0,0,0,,hi".toList = "Dialogue: 0,0:00:00.00,0:00:01.00,A,,0,0,0,,hi".toList) ▸
      stripped_trim "Dialogue: 0,0:00:00.00,0:00:01.00,A,,0,0,0,,hi".toList) (by rw [he]; rfl)⟩

/-- **C172, disagreement.** An event line with a blank before it is refused. -/
theorem C172_blank_violated : inSection short .events " Dialogue: A,hi".toList 3 = .error .unreadable ∧
    Reads short 3 " Dialogue: A,hi".toList (.event (plain, newSpan 3)) := ⟨rfl, parseAuto_iff.1 rfl⟩

/-- **C172, disagreement.** A style line, given as it stands in the section, is read as a style with another name; and a style or event line
given for the script info section is read as a field. -/
theorem C172_style_violated :
    (∃ st, inSection short .styles "Style: A,Arial".toList 3 = .ok (.style (st, newSpan 3)) ∧ st.name = "Style: A".toList) ∧
    (∃ st, Reads short 3 "Style: A,Arial".toList (.style (st, newSpan 3)) ∧ st.name = "A".toList) ∧
    inSection short .info "Style: A,Arial".toList 3 = .ok (.field "Style".toList "A,Arial".toList) :=
  ⟨⟨_, rfl, by decide⟩, ⟨_, parseAuto_iff.1 rfl, by decide⟩, rfl⟩

end Verif.Props.LineIn
