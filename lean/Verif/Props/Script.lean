import Verif.Lemmas.AnyPlace
/-! Properties C09 and C73: parsing a whole source. -/
namespace Verif
open Verif.Ast
open Verif.Parser
open Verif.Spec.Script
open Verif.Spec.InfoCmd (Stripped)

/-! ## C09 -/

/-- **C09 (it always ends).** Parsing terminates on every source text. -/
theorem C09_total (src : Str) : parse src ≠ none := by
  obtain ⟨s, h⟩ := parse_total src
  rw [h]; simp

/-- **C09 (the sections in order), partial.** For every source of at most 50 MB in which every line that opens a section
has its closing bracket: the parsed sections are exactly the known ones, in source order, each with what its lines say;
every unknown section is reported, in order; the format lists are those of the last sections.

Missing: sources with an unclosed bracket (where it fails, `C09_unclosed_violated`). -/
theorem C09_sections_partial {src : Str} {segs : List Seg} (hsize : size src ≤ 50 * 1024 * 1024) (h : Document src segs) :
    ∃ s ss us, parse src = some s ∧ SectionsOf none none segs ss s.stylesFmt s.eventsFmt us ∧
      s.sections.map said = ss ∧ unknowns s.issues = us := by
  obtain ⟨bom, junk, rest, lines, e, hbom, hrest, hnl, hj, hseg⟩ := h
  have hinit : (initial src).rest = rest ∧ (initial src).off = size bom ∧ (initial src).sections = [] ∧
      (initial src).issues = [] ∧ (initial src).stylesFmt = none ∧ (initial src).eventsFmt = none := by
    rcases hbom with rfl | ⟨rfl, hne⟩
    · have ei : initial (Char.ofNat 0xFEFF :: rest) = ⟨rest, 3, 1, .ass4, [], [], none, none⟩ := by
        unfold initial; simp only [if_true]
      rw [e, List.singleton_append, ei]
      exact ⟨rfl, (by decide : 3 = size [Char.ofNat 0xFEFF]), rfl, rfl, rfl, rfl⟩
    · rw [e, List.nil_append]
      unfold initial
      cases rest with
      | nil => exact ⟨rfl, rfl, rfl, rfl, rfl, rfl⟩
      | cons c s =>
        have : c ≠ Char.ofNat 0xFEFF := fun h => hne (by rw [h]; rfl)
        simp only [if_neg this]
        exact ⟨trivial, rfl, trivial, trivial, trivial, trivial⟩
  obtain ⟨i1, i2, i3, i4, i5, i6⟩ := hinit
  have ht : tail (initial src).rest = trimStart (unlines lines) :=
    (body_lines hseg hj hnl (by rw [i1, hrest])).2
  have hoff : lines ≠ [] → (initial src).off + byteLen (initial src).rest = size bom + sizes junk + byteLen (unlines lines) := by
    intro hl
    rw [i1, i2, hrest, size_unlines hl]; omega
  have hlen : (initial src).rest.length < src.length + 1 := by have := initial_rest src; omega
  obtain ⟨q, ss, us, g1, g2, g3, g4⟩ := mainLoop_doc hseg hlen (fun l hl => hnl l (by simp [hl])) ht hoff
  rw [i5, i6] at g2
  rw [i3] at g3
  rw [i4] at g4
  refine ⟨⟨q.version, q.sections, q.issues, q.stylesFmt, q.eventsFmt⟩, ss, us, ?_, g2, by simpa using g3, by simpa [unknowns] using g4⟩
  unfold parse
  have : ¬ byteLen src > 50 * 1024 * 1024 := by
    rw [← size_eq]; omega
  rw [if_neg this, g1]

/-- A source with a remark first, an unknown section, and two known ones. -/
def doc1 : Str := "; a\n[Script Info]\nTitle: x\n\n[Odd]\nabc\n [Events] \nDialogue: 0,0:00:00.00,0:00:01.00,D,,0,0,0,,a, b\n".toList

/-- Its sections. -/
def segs1 : List Seg :=
  [⟨"Script Info".toList, 18, ["Title: x".toList, []]⟩, ⟨"Odd".toList, 34, ["abc".toList]⟩,
   ⟨"Events".toList, 49, ["Dialogue: 0,0:00:00.00,0:00:01.00,D,,0,0,0,,a, b".toList, []]⟩]

theorem doc1_document : Document doc1 segs1 := by
  refine ⟨[], ["; a".toList], doc1, ["[Script Info]".toList, "Title: x".toList, [], "[Odd]".toList, "abc".toList,
    " [Events] ".toList, "Dialogue: 0,0:00:00.00,0:00:01.00,D,,0,0,0,,a, b".toList, []], rfl, Or.inr ⟨rfl, by decide⟩, rfl,
    by decide, ?_, ?_⟩
  · intro l hl
    rw [← not_opens_spec]
    exact (by decide : ∀ l ∈ ["; a".toList], opens l = false) l hl
  · have c1 : Header "[Script Info]".toList "Script Info".toList := ⟨[], [], rfl, by simp, by decide⟩
    have c2 : Header "[Odd]".toList "Odd".toList := ⟨[], [], rfl, by simp, by decide⟩
    have c3 : Header " [Events] ".toList "Events".toList := ⟨[' '], [' '], rfl, by
      intro c hc; rw [List.mem_singleton.1 hc]; exact Or.inr (Or.inl rfl), by decide⟩
    refine .cons (body := ["Title: x".toList, []]) c1 ?_ (.cons (body := ["abc".toList]) c2 ?_
      (.cons (body := ["Dialogue: 0,0:00:00.00,0:00:01.00,D,,0,0,0,,a, b".toList, []]) (rest := []) c3 ?_ (.nil _)))
    all_goals
      intro l hl
      rw [← not_opens_spec]
    · exact (by decide : ∀ l ∈ ["Title: x".toList, []], opens l = false) l hl
    · exact (by decide : ∀ l ∈ ["abc".toList], opens l = false) l hl
    · exact (by decide : ∀ l ∈ ["Dialogue: 0,0:00:00.00,0:00:01.00,D,,0,0,0,,a, b".toList, []], opens l = false) l hl

example : ∃ s ss us, parse doc1 = some s ∧ SectionsOf none none segs1 ss s.stylesFmt s.eventsFmt us ∧
    s.sections.map said = ss ∧ unknowns s.issues = us := C09_sections_partial (by decide) doc1_document

/-- **C09 is violated**: after an unclosed bracket, a known section with its header and its event is lost. -/
theorem C09_unclosed_violated : ∃ (a : Str) (b : List Str), '\n' ∉ a ∧ b.head? = some "[Events]".toList ∧
    (parse (unlines b)).map (fun s => s.sections.length) = some 1 ∧
    (parse (a ++ '\n' :: unlines b)).map (fun s => s.sections.length) = some 0 :=
  ⟨"[Script Info".toList, ["[Events]".toList, "Dialogue: 0,0:00:00.00,0:00:01.00,D,,0,0,0,,a".toList],
    by decide, rfl, by decide, by decide⟩

/-! ## C73 -/

/-- **C73 (events).** For every source: the place given for a parsed event is a whole line of the source (without the blanks
before it), and that line reads as the event. -/
theorem C73_events {src : Str} {s : Script} (hs : parse src = some s) {l : List (Event × Span)} (hl : Section.events l ∈ s.sections)
    {e : Event} {sp : Span} (he : (e, sp) ∈ l) :
    ∃ x y fmt, LineAt src sp.start sp.stop x ∧ Stripped x y ∧ parseEvent y fmt = some e :=
  parse_placed hs _ hl (e, sp) he

/-- **C73 (styles).** The same for styles. -/
theorem C73_styles {src : Str} {s : Script} (hs : parse src = some s) {l : List (Style × Span)} (hl : Section.styles l ∈ s.sections)
    {e : Style} {sp : Span} (he : (e, sp) ∈ l) :
    ∃ x d y fmt, LineAt src sp.start sp.stop x ∧ Stripped x ("Style:".toList ++ d) ∧ Stripped d y ∧
      parseStyle y fmt = some e :=
  parse_placed hs _ hl (e, sp) he

/-- Also behind a bracket that is never closed. -/
example : (parse "[Odd\n[x]\n[Events]\n \tDialogue: 0,0:00:00.00,0:00:01.00,D,,0,0,0,,é\n[V4+ Styles\nStyle: A\n".toList).map
    (fun s => s.sections.map (fun x => match x with
      | .events l => l.map (fun e => (e.2.start, e.2.stop))
      | .styles l => l.map (fun e => (e.2.start, e.2.stop))
      | _ => [])) = some [[(20, 66)]] := by decide +kernel

/-- The example has an event. -/
example : (parse doc1).map (fun s => s.sections.any (fun x => match x with
    | .events [(_, sp)] => sp.start = 49 && sp.stop = 97
    | _ => false)) = some true := by decide

end Verif
