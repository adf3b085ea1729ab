import Verif.Lemmas.Lookup
import Verif.Props.Update
import Verif.Props.Script
/-! Property C135: the section at an offset, the range of a section, the list of ranges. -/
namespace Verif.Props.Lookup
open Verif
open Verif.Ast
open Verif.Parser
open Verif.Lookup
open Verif.Update (Scr updateLine)
open Verif.Spec.Update
open Verif.Spec.Lookup
open Verif.Spec.Script (Line size sizes Seg Segments unlines Document)
open Verif.Props (small of_parsed)

/-- **C135 (lines).** Whatever the source: at every offset in the place of a field, style, event or embedded file, the
section found is the one this stands in. -/
theorem C135_line {src : Str} {s : Script} (h : parse src = some s) {A B : List Section} {sec : Section} (hs : s.sections = A ++ sec :: B)
    {p : Span} (hp : p ∈ places sec) {o : Nat} (ho : Within o p) : sectionAt s o = some sec ∧ ∀ x ∈ A ++ B, ¬ Spanned o x := by
  have hord := parse_ordered h
  rw [hs] at hord
  obtain ⟨P, Q, hpq⟩ := List.append_of_mem hp
  obtain ⟨h1, h2, -⟩ := Update.ordered_find hord hpq ho
  have hu := spanned_unique hord h2
  refine ⟨?_, ?_⟩
  · unfold sectionAt; rw [hs]; exact find_mid h1 h2
  · intro x hx
    rcases List.mem_append.1 hx with hx | hx
    · exact hu.1 x hx
    · exact hu.2 x hx

/-- **C135 (what is found).** Whatever the source, a section is found at an offset exactly if the offset is between the
beginning of the first and the end of the last thing in it, and then no other section is so placed. -/
theorem C135_found {src : Str} {s : Script} (h : parse src = some s) (o : Nat) :
    (∀ sec, sectionAt s o = some sec ↔ sec ∈ s.sections ∧ Spanned o sec) ∧
    (sectionAt s o = none ↔ ∀ sec ∈ s.sections, ¬ Spanned o sec) ∧
    ∀ (i j : Nat) x y, s.sections[i]? = some x → s.sections[j]? = some y → Spanned o x → Spanned o y → i = j := by
  have hord := parse_ordered h
  have split : ∀ {l : List Section} {i : Nat} {x : Section}, l[i]? = some x → l = l.take i ++ x :: l.drop (i + 1) := by
    intro l i x hx
    obtain ⟨hi, rfl⟩ := List.getElem?_eq_some_iff.1 hx
    rw [List.getElem_cons_drop, List.take_append_drop]
  refine ⟨?_, ?_, ?_⟩
  · intro sec
    constructor
    · intro hf
      unfold sectionAt at hf
      have hs := List.find?_some hf
      exact ⟨List.mem_of_find?_eq_some hf, any_iff.1 hs⟩
    · rintro ⟨hm, hs⟩
      obtain ⟨A, B, e⟩ := List.append_of_mem hm
      rw [e] at hord
      unfold sectionAt
      rw [e]
      exact find_mid (spanned_unique hord hs).1 hs
  · unfold sectionAt
    rw [List.find?_eq_none]
    exact ⟨fun g x hx hs => g x hx (any_iff.2 hs), fun g x hx hs => g x hx (any_iff.1 hs)⟩
  · intro i j x y hx hy sx sy
    have key : ∀ {i j : Nat} {x y : Section}, s.sections[i]? = some x → s.sections[j]? = some y → Spanned o x → Spanned o y → ¬ i < j := by
      intro i j x y hx hy sx sy hij
      have e := split hx
      have hu := (spanned_unique (by rw [← e]; exact hord) sx).2 y ?_
      · exact hu sy
      · obtain ⟨hj, rfl⟩ := List.getElem?_eq_some_iff.1 hy
        rw [List.mem_drop_iff_getElem]
        exact ⟨j - (i + 1), by omega, by congr 1; omega⟩
    rcases Nat.lt_trichotomy i j with h1 | h1 | h1
    · exact absurd h1 (key hx hy sx sy)
    · exact h1
    · exact absurd h1 (key hy hx sy sx)

example : ∃ s, parse small = some s ∧ (sectionAt s 75).map kindOf = some .styles ∧ (sectionAt s 200).map kindOf = some .events ∧
    (sectionAt s 15).map kindOf = some .info ∧ (sectionAt s 3).map kindOf = none ∧ (sectionAt s 229).map kindOf = none := by
  obtain ⟨s, h1, h2⟩ := of_parsed (src := small)
    (P := fun s => decide ((sectionAt s 75).map kindOf = some .styles ∧ (sectionAt s 200).map kindOf = some .events ∧
      (sectionAt s 15).map kindOf = some .info ∧ (sectionAt s 3).map kindOf = none ∧ (sectionAt s 229).map kindOf = none)) (by decide +kernel)
  exact ⟨s, h1, of_decide_eq_true h2⟩

/-- **C135 (ranges).** The range of a kind of section runs from the beginning of the first to the end of the last thing in
the first section of the kind; there is none exactly if there is no such section or nothing in the first. -/
theorem C135_range (s : Script) (k : Update.Kind) (a b : Nat) :
    sectionRange s k = some (a, b) ↔
      ∃ A sec B, s.sections = A ++ sec :: B ∧ (∀ x ∈ A, kindOf x ≠ k) ∧ kindOf sec = k ∧ Extent sec a b := by
  unfold sectionRange findKind
  constructor
  · intro h
    cases hf : s.sections.find? (fun x => decide (Update.kind x = k)) with
    | none => rw [hf] at h; cases h
    | some sec =>
      rw [hf] at h
      obtain ⟨h1, A, B, h2, h3⟩ := List.find?_eq_some_iff_append.1 hf
      refine ⟨A, sec, B, h2, ?_, ?_, span_iff.1 h⟩
      · intro x hx e
        have := h3 x hx
        rw [Update.kind_eq, decide_eq_true e] at this
        cases this
      · rw [← Update.kind_eq]; exact of_decide_eq_true h1
  · rintro ⟨A, sec, B, h1, h2, h3, h4⟩
    have : s.sections.find? (fun x => decide (Update.kind x = k)) = some sec := by
      rw [List.find?_eq_some_iff_append]
      refine ⟨by rw [Update.kind_eq]; exact decide_eq_true h3, A, B, h1, ?_⟩
      intro x hx
      rw [Update.kind_eq, decide_eq_false (h2 x hx)]
      rfl
    rw [this]
    exact span_iff.2 h4

/-- **C135 (the list of ranges).** Whatever the source, the list gives, in the order of the sections, kind and range of every
section with something in it; the ranges follow each other without overlap. -/
theorem C135_list {src : Str} {s : Script} (h : parse src = some s) :
    (∃ ranges : List (Section × Nat × Nat), ranges.map (·.1) = s.sections.filter (fun x => !(places x).isEmpty) ∧
      (∀ r ∈ ranges, Extent r.1 r.2.1 r.2.2) ∧ boundaries s = ranges.map (fun r => (kindOf r.1, r.2))) ∧
    (∀ r ∈ boundaries s, r.2.1 ≤ r.2.2) ∧ (boundaries s).Pairwise (fun a b => a.2.2 ≤ b.2.1) := by
  refine ⟨?_, boundaries_ordered (parse_ordered h)⟩
  unfold boundaries
  clear h
  induction s.sections with
  | nil => exact ⟨[], rfl, by simp, rfl⟩
  | cons x l ih =>
    obtain ⟨rs, h1, h2, h3⟩ := ih
    cases hs : Update.span x with
    | none =>
      refine ⟨rs, ?_, h2, ?_⟩
      · rw [List.filter_cons_of_neg (by rw [span_none.1 hs]; decide)]; exact h1
      · rw [List.filterMap_cons]; simp only [hs, Option.map_none]; exact h3
    | some p =>
      refine ⟨(x, p.start, p.stop) :: rs, ?_, ?_, ?_⟩
      · rw [List.filter_cons_of_pos, List.map_cons, h1]
        cases hp : places x with
        | nil => rw [span_none.2 hp] at hs; cases hs
        | cons => rfl
      · intro r hr
        rcases List.mem_cons.1 hr with rfl | hr
        · exact span_iff.1 (by rw [hs]; rfl)
        · exact h2 r hr
      · rw [List.filterMap_cons]; simp only [hs, Option.map_some, List.map_cons, h3, Update.kind_eq x]

example : ∃ s, parse small = some s ∧ boundaries s = [(.info, 14, 23), (.styles, 69, 102), (.events, 151, 229)] ∧
    sectionRange s .styles = some (69, 102) ∧ sectionRange s .fonts = none := by
  obtain ⟨s, h1, h2⟩ := of_parsed (src := small)
    (P := fun s => decide (boundaries s = [(.info, 14, 23), (.styles, 69, 102), (.events, 151, 229)] ∧
    sectionRange s .styles = some (69, 102) ∧ sectionRange s .fonts = none)) (by decide +kernel)
  exact ⟨s, h1, of_decide_eq_true h2⟩

/-- **C135 (the text), partial.** For every source of at most 50 MB in which every line that opens a section has its closing
bracket: the parsed sections are those with a known name, and every offset at which one is found lies after its header line
and before the bracket of the next header (or the end of the source).

Missing: sources with an unclosed bracket. -/
theorem C135_text_partial {src : Str} {segs : List Seg} (hsize : size src ≤ 50 * 1024 * 1024) (h : Document src segs) :
    ∃ s o pre lines, parse src = some s ∧ (lines ≠ [] → src = pre ++ unlines lines ∧ size pre = o) ∧ Segments o lines segs ∧
      Stands o lines s.sections := by
  obtain ⟨bom, junk, rest, lines, e, hbom, hrest, hnl, hj, hseg⟩ := h
  have hinit : (initial src).rest = rest ∧ (initial src).off = size bom ∧ (initial src).sections = [] := by
    rcases hbom with rfl | ⟨rfl, hne⟩
    · have ei : initial (Char.ofNat 0xFEFF :: rest) = ⟨rest, 3, 1, .ass4, [], [], none, none⟩ := by
        unfold initial; simp only [if_true]
      rw [e, List.singleton_append, ei]
      exact ⟨rfl, (by decide : 3 = size [Char.ofNat 0xFEFF]), rfl⟩
    · rw [e, List.nil_append]
      unfold initial
      cases rest with
      | nil => exact ⟨rfl, rfl, rfl⟩
      | cons c s =>
        have : c ≠ Char.ofNat 0xFEFF := fun h => hne (by rw [h]; rfl)
        simp only [if_neg this]
        exact ⟨trivial, rfl, trivial⟩
  obtain ⟨i1, i2, i3⟩ := hinit
  have ht : tail (initial src).rest = trimStart (unlines lines) :=
    (body_lines hseg hj hnl (by rw [i1, hrest])).2
  have hoff : lines ≠ [] → (initial src).off + byteLen (initial src).rest = size bom + sizes junk + byteLen (unlines lines) := by
    intro hl
    rw [i1, i2, hrest, size_unlines hl]; omega
  have hlen : (initial src).rest.length < src.length + 1 := by have := initial_rest src; omega
  obtain ⟨q, ss, g1, g2, g3⟩ := mainLoop_stands hseg hlen (fun l hl => hnl l (by simp [hl])) ht hoff
  rw [i3, List.nil_append] at g2
  have hparse : parse src = some ⟨q.version, q.sections, q.issues, q.stylesFmt, q.eventsFmt⟩ := by
    unfold parse
    have : ¬ byteLen src > 50 * 1024 * 1024 := by
      rw [← size_eq]; omega
    rw [if_neg this, g1]
  have hst : Stands (size bom + sizes junk) lines (⟨q.version, q.sections, q.issues, q.stylesFmt, q.eventsFmt⟩ : Script).sections := by
    show Stands _ _ q.sections
    rw [g2]; exact g3
  by_cases hjk : junk = []
  · subst hjk
    exact ⟨_, _, bom, lines, hparse, fun _ => ⟨by rw [e, hrest]; rfl, rfl⟩, hseg, hst⟩
  · refine ⟨_, _, bom ++ unlines junk ++ ['\n'], lines, hparse, fun hne => ⟨?_, ?_⟩, hseg, hst⟩
    · rw [e, hrest, unlines_append hjk hne]; simp
    · rw [← sizes_unlines hjk, ← size_eq]; simp [size, show Char.utf8Size '\n' = 1 by decide]

example : ∃ s o pre lines, parse doc1 = some s ∧ (lines ≠ [] → doc1 = pre ++ unlines lines ∧ size pre = o) ∧ Segments o lines segs1 ∧
    Stands o lines s.sections := C135_text_partial (by decide) doc1_document

/-- **C135 (headers), violated.** The section that contains an offset is not found when the offset is in its header line, in
its format line or in a remark before its first or after its last entry: here every byte of the header and the format line of
the styles. -/
theorem C135_inside_violated : ∃ s, parse small = some s ∧ ∀ o, 23 ≤ o → o < 69 → sectionAt s o = none := by
  obtain ⟨s, h1, h2⟩ := of_parsed (src := small)
    (P := fun s => decide (∀ o : Fin 69, 23 ≤ o.val → sectionAt s o.val = none)) (by decide +kernel)
  exact ⟨s, h1, fun o a b => of_decide_eq_true h2 ⟨o, b⟩ a⟩

/-- Two sections of events, the first with nothing in it. -/
def twice : Str := "[Events]\nFormat: Layer, Start, End, Style, Text\n[Events]\nDialogue: 0,0:00:01.00,0:00:02.00,A,,0,0,0,,one\n".toList

/-- **C135 (a second section of the kind), violated.** The range of the events is not given if the first section of events is
empty, though a second one has events. -/
theorem C135_range_violated : ∃ s, parse twice = some s ∧ sectionRange s .events = none ∧ boundaries s = [(.events, 57, 104)] := by
  obtain ⟨s, h1, h2⟩ := of_parsed (src := twice)
    (P := fun s => decide (sectionRange s .events = none ∧ boundaries s = [(.events, 57, 104)])) (by decide +kernel)
  exact ⟨s, h1, of_decide_eq_true h2⟩

/-- **C135 (after an update), violated.** When the last event has been replaced by the line at its offset, no section is
found at the first event any more, the range of the events ends before it begins, and the first event cannot be replaced. -/
theorem C135_updated_violated : ∃ s t old, parse small = some s ∧
    updateLine ⟨s, [], false⟩ 200 "Dialogue: 0,0:00:03.00,0:00:04.00,B,new".toList 9 = (t, .ok old) ∧
    (sectionAt s 160).isSome ∧ sectionAt t.script 160 = none ∧ sectionRange t.script .events = some (151, 0) ∧
    ∃ e, updateLine t 160 "Dialogue: 0,0:00:01.00,0:00:02.00,A,uno".toList 8 = (t, .error e) := by
  obtain ⟨s, h1, h2⟩ := of_parsed (src := small)
    (P := fun s => match updateLine ⟨s, [], false⟩ 200 "Dialogue: 0,0:00:03.00,0:00:04.00,B,new".toList 9 with
      | (t, .ok _) => decide ((sectionAt s 160).isSome ∧ sectionAt t.script 160 = none ∧ sectionRange t.script .events = some (151, 0) ∧
          Update.findSection 160 t.script.sections = none)
      | _ => false) (by decide +kernel)
  cases hu : updateLine ⟨s, [], false⟩ 200 "Dialogue: 0,0:00:03.00,0:00:04.00,B,new".toList 9 with
  | mk t r =>
    rw [hu] at h2
    cases r with
    | error e => cases h2
    | ok old =>
      obtain ⟨a, b, c, d⟩ := of_decide_eq_true h2
      exact ⟨s, t, old, h1, hu, a, b, c, .sectionNotFound, by unfold updateLine; rw [d]⟩

end Verif.Props.Lookup
