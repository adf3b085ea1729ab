import Verif.Lemmas.Complete
import Verif.Lemmas.Sort
/-!
# C103 — auto-completion
-/
namespace Verif.Props
open Verif Verif.Complete Verif.Spec.Complete

/-- **C103.** Every position between two characters of a document is a cursor in one of its lines, in some section. -/
theorem C103_place (before after : Str) :
    ∃ above lb la below sec, Cut (before ++ after) above lb la below ∧ before = above ++ lb ∧ SectionAt above sec := by
  obtain ⟨p, lb, la, q, h1, h2⟩ := cut_exists before after
  obtain ⟨s, hs⟩ := section_exists p h1.above
  exact ⟨p, lb, la, q, s, h1, h2, hs⟩

/-- **C103.** A document's section at a line is determined by the lines above it. -/
theorem C103_one_section {above : Str} {s s' : Option Str} (h : SectionAt above s) (h' : SectionAt above s') : s = s' :=
  (section_eq h).symm.trans (section_eq h')

theorem context_panic {alnum : Char → Bool} {text : Str} {offset : Nat} :
    (context alnum text offset = .panic ↔ ∀ a b, text = a ++ b → offset ≠ bytes a) ∧ context alnum text offset ≠ .err := by
  unfold context
  cases h1 : takeBytes text offset with
  | none =>
    refine ⟨⟨fun _ a b e1 e2 => ?_, fun _ => ?_⟩, ?_⟩
    · rw [e1, e2] at h1
      rw [show bytes a = byteLen a from rfl, takeBytes_append] at h1
      cases h1
    · cases dropBytes text offset <;> rfl
    · cases dropBytes text offset <;> (intro h; cases h)
  | some a =>
    obtain ⟨b, e1, e2⟩ := takeBytes_iff.1 h1
    have h2 : dropBytes text offset = some b := by rw [e1, ← e2, dropBytes_append]
    rw [h2]
    refine ⟨⟨fun h => ?_, fun h => absurd e2.symm (h a b e1)⟩, ?_⟩
    · cases h
    · intro h; cases h

theorem gather_panic {lower : Str → Str} {cfg : Config} {script : List Parser.Section} {lb la : Str} {so : Option Str} {t : Bool}
    {g : Option Str} : (gather lower cfg script ⟨lb, la, so, t, g⟩ = .panic ↔ lb = [] ∧ la.head? = some '[') ∧
    gather lower cfg script ⟨lb, la, so, t, g⟩ ≠ .err := by
  rw [gather_eq]
  have hp := section_panic (lower := lower) (lb := lb) (la := la) (so := so) (t := t) (g := g)
  by_cases hc : (⟨lb, la, so, t, g⟩ : Ctx).line = [] ∨ (⟨lb, la, so, t, g⟩ : Ctx).line.head? = some '['
  · rw [if_pos hc]
    cases hs : sectionItems lower ⟨lb, la, so, t, g⟩ with
    | ok l =>
      rw [hs] at hp
      refine ⟨⟨fun h => (by cases h), fun h => ?_⟩, (by intro h; cases h)⟩
      have := hp.1.2 h
      cases this
    | err => rw [hs] at hp; exact absurd rfl hp.2
    | panic =>
      rw [hs] at hp
      exact ⟨⟨fun _ => hp.1.1 rfl, fun _ => rfl⟩, (by intro h; cases h)⟩
  · rw [if_neg hc]
    refine ⟨⟨fun h => (by cases h), fun h => ?_⟩, (by intro h; cases h)⟩
    exact absurd (.inr (by show (lb ++ la).head? = _; rw [h.1]; exact h.2)) hc

/-- **C103.** A request fails exactly when its position is not between two characters of the document, or is at the beginning of a
line that begins with a bracket. -/
theorem C103_panics (alnum : Char → Bool) (lower : Str → Str) (cfg : Config) (script : List Parser.Section) (text : Str) (offset : Nat) :
    (completions alnum lower cfg script text offset = .panic ↔
      (∀ a b, text = a ++ b → offset ≠ bytes a) ∨
      ∃ above la below, Cut text above [] ('[' :: la) below ∧ offset = bytes above) ∧
    completions alnum lower cfg script text offset ≠ .err := by
  by_cases hb : ∀ a b, text = a ++ b → offset ≠ bytes a
  · have := (context_panic (alnum := alnum)).1.2 hb
    unfold completions
    rw [this]
    exact ⟨⟨fun _ => .inl hb, fun _ => rfl⟩, by intro h; cases h⟩
  · obtain ⟨a, b, e, ho⟩ : ∃ a b, text = a ++ b ∧ offset = bytes a := by
      apply Classical.byContradiction
      intro hn
      exact hb fun a b e h => hn ⟨a, b, e, h⟩
    obtain ⟨p, lb, la, q, s, h1, h2, hs⟩ := C103_place a b
    rw [← e] at h1
    have hx := context_eq (alnum := alnum) h1 hs
    rw [← h2, ← ho] at hx
    have hg := gather_panic (lower := lower) (cfg := cfg) (script := script) (lb := lb) (la := la) (so := s) (t := inTag lb)
      (g := tagAt alnum lb)
    have hiff : completions alnum lower cfg script text offset = .panic ↔ lb = [] ∧ la.head? = some '[' := by
      rw [← hg.1]
      unfold completions
      rw [hx]
      dsimp only
      cases gather lower cfg script ⟨lb, la, s, inTag lb, tagAt alnum lb⟩ with
      | ok l => exact ⟨fun h => (by cases h), fun h => (by cases h)⟩
      | err => exact ⟨fun h => (by cases h), fun h => (by cases h)⟩
      | panic => exact ⟨fun _ => rfl, fun _ => rfl⟩
    refine ⟨?_, ?_⟩
    · rw [hiff]
      constructor
      · rintro ⟨rfl, h⟩
        cases la with
        | nil => cases h
        | cons x la =>
          cases h
          refine .inr ⟨p, la, q, h1, ?_⟩
          rw [ho, h2, List.append_nil]
      · rintro (h | ⟨p', la', q', h', ho'⟩)
        · exact absurd h hb
        · obtain ⟨s', hs'⟩ := section_exists p' h'.above
          have hx' := context_eq (alnum := alnum) h' hs'
          rw [List.append_nil, ← ho'] at hx'
          rw [hx] at hx'
          have := Outcome.ok.inj hx'
          cases this
          exact ⟨rfl, rfl⟩
    · unfold completions
      rw [hx]
      dsimp only
      have := hg.2
      revert this
      cases gather lower cfg script ⟨lb, la, s, inTag lb, tagAt alnum lb⟩ with
      | ok l => intro _ h; cases h
      | err => intro h; exact absurd rfl h
      | panic => intro _ h; cases h

example : completions Char.isAlphanum id ⟨true, true, true, 20⟩ [] "é[x".toList 1 = .panic ∧
    completions Char.isAlphanum id ⟨true, true, true, 20⟩ [] "\n[x".toList 1 = .panic ∧
    completions Char.isAlphanum id ⟨true, true, true, 20⟩ [] "é".toList 3 = .panic := by decide +kernel

theorem offered_names {alnum : Char → Bool} {lower : Str → Str} {cfg : Config} {names names' : List Str} {sec : Option Str}
    {before after : Str} (hn : ∀ n, n ∈ names → n ∈ names') {w : What} (h : Offered alnum lower cfg names sec before after w) :
    Offered alnum lower cfg names' sec before after w := by
  cases h with
  | sections h1 h2 h3 => exact .sections h1 h2 h3
  | section_ h1 h2 h3 => exact .section_ h1 h2 h3
  | field h1 h2 h3 h4 h5 h6 => exact .field h1 h2 h3 h4 h5 h6
  | tags h1 h2 h3 h4 => exact .tags h1 h2 h3 h4
  | tag h1 h2 h3 h4 h5 h6 => exact .tag h1 h2 h3 h4 h5 h6
  | style h1 h2 h3 h4 h5 h6 => exact .style h1 h2 h3 h4 h5 (hn _ h6)

theorem mem_styleNames {script : List Parser.Section} {n : Str} :
    n ∈ styleNames script ↔ ∃ l p, Parser.Section.styles l ∈ script ∧ p ∈ l ∧ p.1.name = n := by
  unfold styleNames
  rw [List.mem_flatMap]
  constructor
  · rintro ⟨s, h1, h2⟩
    cases s with
    | styles l =>
      obtain ⟨p, h3, h4⟩ := List.mem_map.1 h2
      exact ⟨l, p, h1, h3, h4⟩
    | _ => cases h2
  · rintro ⟨l, p, h1, h2, h3⟩
    exact ⟨_, h1, List.mem_map.2 ⟨p, h2, h3⟩⟩

/-- **C103.** What is offered at the cursor: sections on an empty line and after a bracket, fields of the section outside blocks,
tags in blocks, the script's styles in the style field of an event; in the order of their ranks, at most as many as configured,
and all of them when that is enough.  For lines in which an override block without a backslash has no backslash before it.
Missing: a cursor at the start of a line that begins with a bracket (`C103_header_violated`), tags after an earlier tag
(`C103_tags_violated`). -/
theorem C103_offers_partial (alnum : Char → Bool) (lower : Str → Str) (cfg : Config) (script : List Parser.Section)
    {text above before after below : Str} {sec : Option Str} (h : Cut text above before after below) (hs : SectionAt above sec)
    (hbracket : before = [] → after.head? ≠ some '[') (hgood : ∀ b, InBlock before b → '\\' ∉ b → '\\' ∉ before)
    {names : List Str} (hnames : ∀ n, n ∈ names ↔ ∃ l p, Parser.Section.styles l ∈ script ∧ p ∈ l ∧ p.1.name = n) :
    ∃ l, completions alnum lower cfg script text (bytes (above ++ before)) = .ok l ∧ l.length ≤ cfg.max ∧
      (l.Pairwise fun a b => a.order ≤ b.order) ∧
      (∀ i ∈ l, Offered alnum lower cfg names sec before after i.what) ∧
      (l.length < cfg.max → ∀ w, Offered alnum lower cfg names sec before after w → ∃ i ∈ l, i.what = w) := by
  have hn : ∀ n, n ∈ styleNames script ↔ n ∈ names := fun n => mem_styleNames.trans (hnames n).symm
  have hx := context_eq (alnum := alnum) h hs
  have hp := gather_panic (lower := lower) (cfg := cfg) (script := script) (lb := before) (la := after) (so := sec) (t := inTag before)
      (g := tagAt alnum before)
  cases hg : gather lower cfg script ⟨before, after, sec, inTag before, tagAt alnum before⟩ with
  | err => exact absurd hg hp.2
  | panic =>
    have := hp.1.1 hg
    exact absurd this.2 (hbracket this.1)
  | ok l =>
    refine ⟨(sortKey (fun i => i.order) l).take cfg.max, ?_, ?_, ?_, ?_, ?_⟩
    · unfold completions
      rw [hx]
      dsimp only
      rw [hg]
    · rw [List.length_take]; omega
    · exact (sortKey_sorted _ l).sublist (List.take_sublist _ _)
    · intro i hi
      have := mem_sortKey.1 (List.mem_of_mem_take hi)
      exact offered_names (fun n => (hn n).1) ((gathered hgood hg i.what).1 ⟨i, this, rfl⟩)
    · intro hl w hw
      obtain ⟨i, hi, e⟩ := (gathered hgood hg w).2 (offered_names (fun n => (hn n).2) hw)
      refine ⟨i, ?_, e⟩
      have : (sortKey (fun i : Item => i.order) l).length ≤ cfg.max := by
        rw [List.length_take] at hl
        omega
      rw [List.take_of_length_le this]
      exact mem_sortKey.2 hi

example : completions Char.isAlphanum id ⟨true, true, true, 20⟩ [] "[Events]\nDialogue: 0,0,1,D,,0,0,0,,{\\fs}".toList 39 =
    .ok [⟨⟨"\\fs20".toList, "\\fs".toList, .tag⟩, 0⟩, ⟨⟨"\\fscx100".toList, "\\fscx".toList, .tag⟩, 1⟩,
      ⟨⟨"\\fscy100".toList, "\\fscy".toList, .tag⟩, 2⟩, ⟨⟨"\\fsp0".toList, "\\fsp".toList, .tag⟩, 3⟩] := by decide +kernel

/-- **C103 is violated**: the cursor in front of a section header is a panic. -/
theorem C103_header_violated :
    ¬ ∀ (alnum : Char → Bool) (lower : Str → Str) (cfg : Config) (before after : Str),
        completions alnum lower cfg [] (before ++ after) (bytes before) ≠ .panic := by
  intro h
  exact h Char.isAlphanum id ⟨true, true, true, 20⟩ [] "[Events]".toList (by decide +kernel)

/-- **C103 is violated**: after a tag earlier in the line, no tags are offered in a new block. -/
theorem C103_tags_violated :
    ¬ ∀ (alnum : Char → Bool) (lower : Str → Str) (cfg : Config) (text above before after below b : Str) (sec : Option Str),
        Cut text above before after below → SectionAt above sec → (before = [] → after.head? ≠ some '[') → InBlock before b →
        '\\' ∉ b → cfg.tags = true → 0 < cfg.max → completions alnum lower cfg [] text (bytes (above ++ before)) ≠ .ok [] := by
  intro h
  refine h Char.isAlphanum id ⟨true, true, true, 20⟩ _ [] "{\\b1}x{".toList [] [] [] none
    ⟨rfl, by decide, by decide, .inl rfl, fun c e => (by cases e)⟩ .start (fun e => by cases e)
    ⟨"{\\b1}x".toList, rfl, by decide, by decide⟩ (by decide) rfl (by decide) ?_
  decide +kernel

/-- **C103 is violated**: fields are offered by the whole line, not by what is typed before the cursor. -/
theorem C103_field_violated :
    ¬ ∀ (alnum : Char → Bool) (lower : Str → Str) (cfg : Config) (text above before after below s n : Str),
        Cut text above before after below → SectionAt above (some s) → (before = [] → after.head? ≠ some '[') →
        (∀ b, ¬ InBlock before b) → cfg.fields = true → n ∈ fieldsOf s → 40 ≤ cfg.max → Begins lower before n →
        ∃ l, completions alnum lower cfg [] text (bytes (above ++ before)) = .ok l ∧ ∃ i ∈ l, i.what = ⟨n, n, .field⟩ := by
  intro h
  obtain ⟨l, h1, i, h2, h3⟩ := h Char.isAlphanum id ⟨true, true, true, 40⟩ _ "[Script Info]\n".toList "Tit".toList "x".toList []
    "Script Info".toList "Title:".toList ⟨rfl, by decide, by decide, .inr rfl, fun c e => (by cases e)⟩
    (SectionAt.header (a := []) (name := "Script Info".toList) (cr := []) (.inl rfl) (by decide) (.inl rfl))
    (fun e => by cases e) (fun b hb => by
      obtain ⟨a, e, _⟩ := hb
      have : '{' ∈ "Tit".toList := by rw [e]; simp
      revert this; decide) rfl (by decide) (by decide) (.inr ⟨"le:".toList, rfl⟩)
  have e : completions Char.isAlphanum id ⟨true, true, true, 40⟩ [] ("[Script Info]\n".toList ++ "Tit".toList ++ "x".toList ++ [])
      (bytes ("[Script Info]\n".toList ++ "Tit".toList)) = .ok [] := by decide +kernel
  rw [e] at h1
  cases Outcome.ok.inj h1
  cases h2

end Verif.Props
