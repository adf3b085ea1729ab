import Verif.Lemmas.Ranges
/-! Properties C90 and C91: parsing only what changed, and ranges that follow an edit. -/
namespace Verif.Props
open Verif
open Verif.Parser
open Verif.Update (Kind)
open Verif.Incremental
open Verif.Spec.Script
open Verif.Spec.Update (says kindOf places Ordered)
open Verif.Spec.Incremental

/-! ## C91 -/

/-- **C91 (ranges).** When a source is edited, the range given for any stretch of text follows it: a text before or after the
change is found at its new range unchanged; of a text that the change overlaps, the new range holds what stood before the
change, the new text, and what stood after it. -/
theorem C91_range {src new : Str} {c : TextChange} (h : Edited src c new) {a b : Nat} {x : Str} (ht : Text src a b x) :
    (c.stop ≤ a ∨ b ≤ c.start → Text new (adjustRange a b c).1 (adjustRange a b c).2 x) ∧
    (¬ (c.stop ≤ a ∨ b ≤ c.start) → ∃ x1 x2, Before x a c.start x1 ∧ After x b c.stop x2 ∧
      Text new (adjustRange a b c).1 (adjustRange a b c).2 (x1 ++ c.text ++ x2)) := by
  refine ⟨?_, ?_⟩
  · intro hc
    by_cases h1 : c.stop ≤ a
    · rw [adjust_after h1]
      exact text_after h ht h1
    · have h2 : b ≤ c.start := hc.resolve_left h1
      rw [adjust_before h1 h2]
      exact text_before h ht h2
  · intro hc
    exact text_overlap h ht (fun h1 => hc (.inl h1)) (fun h1 => hc (.inr h1))

example : Edited "abcdefgh".toList ⟨2, 4, "XYZ".toList⟩ "abXYZefgh".toList ∧ Text "abcdefgh".toList 1 6 "bcdef".toList ∧
    adjustRange 1 6 ⟨2, 4, "XYZ".toList⟩ = (1, 7) ∧ Text "abXYZefgh".toList 1 7 ("b".toList ++ "XYZ".toList ++ "ef".toList) :=
  ⟨⟨"ab".toList, "cd".toList, "efgh".toList, by decide, by decide, by decide, by decide⟩,
   ⟨"a".toList, "gh".toList, by decide, by decide, by decide⟩, by decide, ⟨"a".toList, "gh".toList, by decide, by decide, by decide⟩⟩

/-- **C91 (the edited source).** The source built for an edit at character boundaries is the old one with the text replaced. -/
theorem C91_source (p o q n : Str) : modifiedSource (p ++ o ++ q) (size p) (size (p ++ o)) n = some (p ++ n ++ q) := by
  unfold modifiedSource
  rw [size_eq, size_eq, dropBytes_append (p ++ o) q, List.append_assoc p o q, takeBytes_append p (o ++ q)]

example : modifiedSource "aéc".toList 1 3 "xy".toList = some "axyc".toList := by decide

/-- **C91 (lines).** The line number of a place is one more than the line feeds before it, and the line range of a stretch of
text that does not begin at the end of the source is that of its beginning and its end. -/
theorem C91_lines (p x q : Str) : lineNumber (p ++ q) (size p) = 1 + feeds p ∧
    (x ++ q ≠ [] → lineRange (p ++ x ++ q) (size p) (size (p ++ x)) = (1 + feeds p, 1 + feeds (p ++ x))) := by
  refine ⟨lineFrom_eq p q (by simp), ?_⟩
  intro hne
  unfold lineRange
  rw [List.append_assoc p x q, rangeFrom_skip (by rw [size_append]; omega) p (x ++ q) (by simp), rangeFrom_start hne (Nat.le_refl _) (by omega)]
  obtain ⟨h1, h2⟩ := rangeFrom_rest (a := size p) (b := size (p ++ x)) (sl := 1 + feeds p) (by omega) x q (line := 1 + feeds p) (cur := size p)
    (by omega) (by rw [size_append])
  simp only [h1, h2, feeds_append]
  rw [Nat.add_assoc]

example : lineNumber "a\nb\nc".toList 4 = 3 ∧ lineRange "a\nb\nc\n".toList 2 5 = (2, 3) := by decide

/-- **C91, disagreement.** The line range of an insertion at the end of the source begins at line 0. -/
theorem C91_end_violated : lineRange "a\nb".toList 3 3 = (0, 2) := by decide

/-! ## C90 -/

/-- **C90 (contents), partial.** Two sources made of the same sections, each with its usual header and at most once, whose lines
contain no header: if every section whose lines differ is touched by the change (from its first to its last line, or an
insertion at its end), incremental parsing gives sections that say the same as those of a full parse of the new source.

Missing: other headers, sections added or removed, changes outside the span of a section, and places, version, formats and
issues (where it fails, see below). -/
theorem C90_contents_partial {first first' : List Line} {parts parts' : List (Kind × List Line)} {s : Script} {c : TextChange}
    (hk : (parts.map (·.1)).Nodup) (hk' : parts'.map (·.1) = parts.map (·.1))
    (hf : ∀ l ∈ first, Clean l) (hf' : ∀ l ∈ first', Clean l)
    (hp : ∀ p ∈ parts, ∀ l ∈ p.2, Clean l) (hp' : ∀ p ∈ parts', ∀ l ∈ p.2, Clean l)
    (hb : (source first parts).head? ≠ some (Char.ofNat 0xFEFF)) (hb' : (source first' parts').head? ≠ some (Char.ofNat 0xFEFF))
    (hs : size (source first parts) ≤ 50 * 1024 * 1024) (hs' : size (source first' parts') ≤ 50 * 1024 * 1024)
    (ho : parse (source first parts) = some s)
    (ht : ∀ q ∈ parts.zip parts', q.1.2 ≠ q.2.2 → ∃ sec ∈ s.sections, kindOf sec = q.1.1 ∧ Touched c sec) :
    ∃ t, parse (source first' parts') = some t ∧ (parseIncremental s (source first' parts') c).sections.map says = t.sections.map says := by
  obtain ⟨s0, h1, h2⟩ := parse_source hf hp hb hs
  rw [ho] at h1
  cases h1
  obtain ⟨t, h3, h4⟩ := parse_source hf' hp' hb' hs'
  refine ⟨t, h3, ?_⟩
  rw [h4]
  have ht' : ∀ q ∈ parts.zip parts', q.1.2 ≠ q.2.2 → q.1.1 ∈ affected s c := fun q hq hne => mem_affected.2 (ht q hq hne)
  unfold parseIncremental
  by_cases ha : affected s c = []
  · rw [if_pos ha]
    simp only [h2]
    have : parts = parts' := by
      rw [ha] at ht'
      clear ht hp hp' hb hb' hs hs' ho h2 h3 h4 hk
      induction parts generalizing parts' with
      | nil => cases parts' with | nil => rfl | cons => simp at hk'
      | cons p ps ih => cases parts' with
        | nil => simp at hk'
        | cons p' ps' =>
          simp only [List.map_cons, List.cons.injEq] at hk'
          have e : p = p' := by
            apply Prod.ext hk'.1.symm
            apply Classical.byContradiction
            intro hne
            cases ht' (p, p') (by simp) hne
          rw [e, ih hk'.2 (fun q hq => ht' q (by simp [hq]))]
    rw [this]
  · rw [if_neg ha]
    exact renew_parts hf' s.sections parts' parts [] hp' (by rw [List.nil_append, hk']; exact hk) hs' h2 hk' ht'

/-- A way to see that a line is clean. -/
theorem clean_of {l : Str} (h : (!l.contains '\n' && !opens l && [Kind.info, .styles, .events, .fonts, .graphics].all (fun k => !containsStr (usual k) l)) = true) :
    Clean l := by
  simp only [Bool.and_eq_true, Bool.not_eq_true'] at h
  obtain ⟨⟨h1, h2⟩, h3⟩ := h
  refine ⟨by simpa using h1, not_opens_spec.1 h2, ?_⟩
  intro k hk
  obtain ⟨a, b, hab⟩ := hk
  rw [List.all_eq_true] at h3
  have := h3 k (by cases k <;> simp)
  simp only [Bool.not_eq_true'] at this
  exact containsStr_false.1 this a b hab.symm

/-- Two sections, with one event. -/
def parts1 : List (Kind × List Line) :=
  [(.info, ["Title: a".toList, []]), (.events, ["Format: Layer, Start, End, Style, Text".toList, "Dialogue: 0,0:00:01.00,0:00:02.00,A,one".toList, []])]

/-- The same with another text. -/
def parts2 : List (Kind × List Line) :=
  [(.info, ["Title: a".toList, []]), (.events, ["Format: Layer, Start, End, Style, Text".toList, "Dialogue: 0,0:00:01.00,0:00:02.00,A,other".toList, []])]

theorem clean_lines {parts : List (Kind × List Line)} (h : (parts.all (fun p => p.2.all (fun l =>
    !l.contains '\n' && !opens l && [Kind.info, .styles, .events, .fonts, .graphics].all (fun k => !containsStr (usual k) l)))) = true) :
    ∀ p ∈ parts, ∀ l ∈ p.2, Clean l := by
  intro p hp l hl
  rw [List.all_eq_true] at h
  have := h p hp
  rw [List.all_eq_true] at this
  exact clean_of (this l hl)

example : ∃ s t, parse (source [] parts1) = some s ∧ parse (source [] parts2) = some t ∧
    (parseIncremental s (source [] parts2) ⟨110, 113, "other".toList⟩).sections.map says = t.sections.map says := by
  have hs : ((parse (source [] parts1)).any (fun s => match s.sections with
      | [_, .events [(_, sp)]] => decide (sp.start < 113) && decide (110 < sp.stop)
      | _ => false)) = true := by decide +kernel
  cases hp : parse (source [] parts1) with
  | none => rw [hp] at hs; cases hs
  | some s =>
    rw [hp] at hs
    obtain ⟨t, h1, h2⟩ := C90_contents_partial (first := []) (first' := []) (parts := parts1) (parts' := parts2) (c := ⟨110, 113, "other".toList⟩)
      (by decide) (by decide) (by simp) (by simp) (clean_lines (by decide +kernel)) (clean_lines (by decide +kernel)) (by decide) (by decide)
      (by decide +kernel) (by decide +kernel) hp (by
        rw [Option.any_some] at hs
        split at hs
        · rename_i i e sp heq
          rw [Bool.and_eq_true, decide_eq_true_eq, decide_eq_true_eq] at hs
          have hz : ∀ q ∈ parts1.zip parts2, q.1.2 ≠ q.2.2 → q.1.1 = .events := by decide
          intro q hq hne
          exact ⟨.events [(e, sp)], by rw [heq]; simp, (hz q hq hne).symm, sp, sp, rfl, rfl, .inl ⟨hs.2, hs.1⟩⟩
        · cases hs)
    exact ⟨s, t, rfl, h1, h2⟩

/-- **C90 (places), partial.** In an ordered script (every parsed one, by `C73_order`) of which the change touches some section:
a section of a kind that is not touched is kept, says the same, and its places are those of the same texts in the new source.
Missing: the places of sections that are read again (`C90_spans_violated`), and changes outside all sections
(`C90_stale_violated`). -/
theorem C90_places_partial {src new : Str} {c : TextChange} (he : Edited src c new) {s : Script} (ho : Ordered (s.sections.flatMap places))
    (ht : ∃ sec ∈ s.sections, Touched c sec) {sec : Section} (hs : sec ∈ s.sections) (hk : ∀ x ∈ s.sections, kindOf x = kindOf sec → ¬ Touched c x) :
    ∃ sec' ∈ (parseIncremental s new c).sections, says sec' = says sec ∧
      ∀ (i : Nat) sp x, (places sec)[i]? = some sp → Text src sp.start sp.stop x →
        ∃ sp', (places sec')[i]? = some sp' ∧ Text new sp'.start sp'.stop x := by
  have ha : ¬ affected s c = [] := by
    obtain ⟨y, h1, h2⟩ := ht
    intro h
    have : kindOf y ∈ affected s c := mem_affected.2 ⟨y, h1, rfl, h2⟩
    rw [h] at this
    cases this
  have hn : Update.kind sec ∉ affected s c := by
    rw [Update.kind_eq]
    intro h
    obtain ⟨x, h1, h2, h3⟩ := mem_affected.1 h
    exact hk x h1 h2 h3
  unfold parseIncremental
  rw [if_neg ha]
  refine ⟨keep c sec, mem_renew hs hn, says_keep c sec, ?_⟩
  have hord : Ordered (places sec) := by
    refine ⟨fun x hx => ho.1 x (List.mem_flatMap.2 ⟨sec, hs, hx⟩), ?_⟩
    obtain ⟨A, B, e⟩ := List.append_of_mem hs
    have := ho.2
    rw [e, List.flatMap_append, List.flatMap_cons, List.pairwise_append, List.pairwise_append] at this
    exact this.2.1.1
  intro i sp x hi hx
  rcases keep_places (c := c) hord (hk sec hs rfl) with ⟨h1, h2⟩ | ⟨h1, h2⟩
  · rw [h1]
    refine ⟨movedSpan c sp, by rw [List.getElem?_map, hi]; rfl, ?_⟩
    exact text_after he hx (h2 sp (List.mem_of_getElem? hi))
  · rw [h1]
    exact ⟨sp, hi, text_before he hx (h2 sp (List.mem_of_getElem? hi))⟩

example : ∃ s, parse (source [] parts1) = some s ∧ (∃ sec ∈ s.sections, Touched ⟨15, 20, "Name".toList⟩ sec) ∧
    ∃ sec ∈ s.sections, kindOf sec = .events ∧ (places sec).length = 1 := by
  have hs : ((parse (source [] parts1)).any (fun s => match s.sections with
      | [.info _ i, .events [(_, _)]] => decide (i.start < 20) && decide (15 < i.stop)
      | _ => false)) = true := by decide +kernel
  cases hp : parse (source [] parts1) with
  | none => rw [hp] at hs; cases hs
  | some s =>
    rw [hp, Option.any_some] at hs
    refine ⟨s, rfl, ?_⟩
    split at hs
    · rename_i f i e sp heq
      rw [Bool.and_eq_true, decide_eq_true_eq, decide_eq_true_eq] at hs
      rw [heq]
      exact ⟨⟨.info f i, by simp, i, i, rfl, rfl, .inl ⟨hs.2, hs.1⟩⟩, .events [(e, sp)], by simp, rfl, rfl⟩
    · cases hs

/-- A statement about a concrete edit. -/
def onEdit (p o q n : Str) (P : Script → Script → Script → Bool) : Bool :=
  (parse (p ++ o ++ q)).any (fun s => (parse (p ++ n ++ q)).any (fun t =>
    P s t (parseIncremental s (p ++ n ++ q) ⟨size p, size (p ++ o), n⟩)))

theorem of_edit {p o q n : Str} {P : Script → Script → Script → Bool} (h : onEdit p o q n P = true) :
    ∃ src new c s t, Edited src c new ∧ parse src = some s ∧ parse new = some t ∧ P s t (parseIncremental s new c) = true ∧ c.text = n := by
  unfold onEdit at h
  cases hs : parse (p ++ o ++ q) with
  | none => rw [hs] at h; cases h
  | some s =>
    rw [hs, Option.any_some] at h
    cases ht : parse (p ++ n ++ q) with
    | none => rw [ht] at h; cases h
    | some t =>
      rw [ht, Option.any_some] at h
      exact ⟨_, _, _, s, t, ⟨p, o, q, rfl, rfl, rfl, rfl⟩, hs, ht, h, rfl⟩

/-- **C90, disagreement.** A change of the format line of the events, which decides how they are read, is not seen. -/
theorem C90_format_violated : ∃ src new c s t, Edited src c new ∧ parse src = some s ∧ parse new = some t ∧
    (parseIncremental s new c).sections.map says ≠ t.sections.map says := by
  obtain ⟨src, new, c, s, t, h1, h2, h3, h4, _⟩ := of_edit (p := "[Events]\nFormat: Layer, Start, End, ".toList) (o := "Style, Name".toList)
    (q := ", Text\nDialogue: 0,0:00:01.00,0:00:02.00,A,B,one\n".toList) (n := "Name, Style".toList)
    (P := fun _ t r => decide (r.sections.map says ≠ t.sections.map says)) (by decide +kernel)
  exact ⟨src, new, c, s, t, h1, h2, h3, of_decide_eq_true h4⟩

/-- **C90, disagreement.** An event inserted before the first one is not seen. -/
theorem C90_insert_violated : ∃ src new c s t, Edited src c new ∧ parse src = some s ∧ parse new = some t ∧ c.text ≠ [] ∧
    (parseIncremental s new c).sections.map says = s.sections.map says ∧ t.sections.map says ≠ s.sections.map says := by
  obtain ⟨src, new, c, s, t, h1, h2, h3, h4, h5⟩ := of_edit (p := "[Events]\nFormat: Layer, Start, End, Style, Text\n".toList) (o := [])
    (q := "Dialogue: 0,0:00:01.00,0:00:02.00,A,one\n".toList) (n := "Dialogue: 0,0:00:00.00,0:00:01.00,A,zero\n".toList)
    (P := fun s t r => decide (r.sections.map says = s.sections.map says ∧ t.sections.map says ≠ s.sections.map says)) (by decide +kernel)
  exact ⟨src, new, c, s, t, h1, h2, h3, by rw [h5]; decide, of_decide_eq_true h4⟩

/-- **C90, disagreement.** In a script with `[V4 Styles]`, which parsing knows, changing a style removes all styles. -/
theorem C90_dropped_violated : ∃ src new c s t, Edited src c new ∧ parse src = some s ∧ parse new = some t ∧
    s.sections.length = 1 ∧ t.sections.length = 1 ∧ (parseIncremental s new c).sections = [] := by
  obtain ⟨src, new, c, s, t, h1, h2, h3, h4, _⟩ := of_edit (p := "[V4 Styles]\nFormat: Name, Fontname, Fontsize\nStyle: A,Arial,".toList) (o := "9".toList)
    (q := "\n".toList) (n := "8".toList)
    (P := fun s t r => decide (s.sections.length = 1 ∧ t.sections.length = 1 ∧ r.sections = [])) (by decide +kernel)
  exact ⟨src, new, c, s, t, h1, h2, h3, of_decide_eq_true h4⟩

/-- **C90, disagreement.** The places of a section parsed anew are counted from its header, not from the beginning of the
source. -/
theorem C90_spans_violated : ∃ src new c s t, Edited src c new ∧ parse src = some s ∧ parse new = some t ∧
    (parseIncremental s new c).sections.map says = t.sections.map says ∧
    (parseIncremental s new c).sections.flatMap places ≠ t.sections.flatMap places := by
  obtain ⟨src, new, c, s, t, h1, h2, h3, h4, _⟩ := of_edit (p := "[Script Info]\nTitle: a\n[V4+ Styles]\nFormat: Name, Fontname, Fontsize\nStyle: A,Arial,".toList)
    (o := "9".toList) (q := "\n".toList) (n := "8".toList)
    (P := fun _ t r => decide (r.sections.map says = t.sections.map says ∧ r.sections.flatMap places ≠ t.sections.flatMap places)) (by decide +kernel)
  exact ⟨src, new, c, s, t, h1, h2, h3, of_decide_eq_true h4⟩

/-- **C90, disagreement.** After a change outside all sections, the places of the sections behind it are not moved. -/
theorem C90_stale_violated : ∃ src new c s t, Edited src c new ∧ parse src = some s ∧ parse new = some t ∧
    (parseIncremental s new c).sections = s.sections ∧ s.sections.flatMap places ≠ t.sections.flatMap places := by
  obtain ⟨src, new, c, s, t, h1, h2, h3, h4, _⟩ := of_edit (p := "; a ".toList)
    (o := []) (q := "\n[Script Info]\nTitle: a\n".toList) (n := "remark".toList)
    (P := fun s t r => decide (r.sections = s.sections ∧ s.sections.flatMap places ≠ t.sections.flatMap places)) (by decide +kernel)
  exact ⟨src, new, c, s, t, h1, h2, h3, of_decide_eq_true h4⟩

/-- **C90, disagreement.** The version of the script stays the old one when its field is changed, and issues are lost. -/
theorem C90_version_violated : ∃ src new c s t, Edited src c new ∧ parse src = some s ∧ parse new = some t ∧
    (parseIncremental s new c).version ≠ t.version ∧ (parseIncremental s new c).issues ≠ t.issues := by
  obtain ⟨src, new, c, s, t, h1, h2, h3, h4, _⟩ := of_edit (p := "[Script Info]\nScriptType: v4.00".toList)
    (o := []) (q := "\nwrong\n".toList) (n := "++".toList)
    (P := fun _ t r => decide (r.version ≠ t.version ∧ r.issues ≠ t.issues)) (by decide +kernel)
  exact ⟨src, new, c, s, t, h1, h2, h3, of_decide_eq_true h4⟩

/-- **C90, disagreement.** When a remark names the header of a section, a change in that section empties it. -/
theorem C90_remark_violated : ∃ src new c s t, Edited src c new ∧ parse src = some s ∧ parse new = some t ∧
    .styles [] ∈ (parseIncremental s new c).sections ∧ .styles [] ∉ s.sections ∧ .styles [] ∉ t.sections := by
  obtain ⟨src, new, c, s, t, h1, h2, h3, h4, _⟩ := of_edit (p := "[Script Info]\n; see [V4+ Styles]\nTitle: a\n[V4+ Styles]\nFormat: Name, Fontname, Fontsize\nStyle: A,Arial,".toList)
    (o := "9".toList) (q := "\n[Events]\n".toList) (n := "8".toList)
    (P := fun s t r => decide (.styles [] ∈ r.sections ∧ .styles [] ∉ s.sections ∧ .styles [] ∉ t.sections)) (by decide +kernel)
  exact ⟨src, new, c, s, t, h1, h2, h3, of_decide_eq_true h4⟩

end Verif.Props
