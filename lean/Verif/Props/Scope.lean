import Verif.Lemmas.Scope
import Verif.Lemmas.Index
/-!
# C110: searching part of a document, and with regular expressions
-/
namespace Verif.Props
open Verif Verif.Doc Verif.Pos Verif.Scope Verif.Spec.Scope
open Verif.Search (Hit hitAt occ limit)
open Verif.Spec.Srch (Occurs lastLine firstLine)
open Verif.Index (Scope)

/-- C110: a search limited to some lines reports exactly the occurrences that lie in these lines, in order, and of these the first
`max`.  Case is folded by `f`.  (Missing: scopes beginning with the first line or after the end of the text, for which it fails,
queries beginning with a character of more than one byte, C29, and foldings that change lengths.) -/
theorem C110_lines_partial (f : Char → Char) (hf : ∀ c, (f c).utf8Size = c.utf8Size) (hn : ∀ c, f c = '\n' ↔ c = '\n') {first last : Nat}
    {before region after : Str} (h : LinesOf first last before region after) (h0 : 0 < first) (hne : region ++ after ≠ []) (p0 : Char)
    (pt : Str) (hp : p0.utf8Size = 1) (max : Nat) (ww : Bool) :
    ∃ all : List Hit, plain (·.map f) (before ++ region ++ after) (p0 :: pt) (.lines first last) max ww =
        .ok (if max > 0 then all.take max else all) ∧
      all.Pairwise (fun h k => h.start < k.start) ∧
      ∀ x, x ∈ all ↔ ∃ a m b, region = a ++ m ++ b ∧ m.map f = (p0 :: pt).map f ∧ x = report (before ++ a) m (b ++ after) := by
  refine ⟨occ f ((p0 :: pt).map f) after before region, ?_, (Search.occ_sorted _ _ _ _ _).1, ?_⟩
  · rw [plain_region hf ?_ (by rw [hf]; exact hp) max ww, limit_nil]
    rw [List.map_append, List.map_append, bounds_lines (map_lines hn h) h0 ?_, Search.byteLen_map hf, Search.byteLen_map hf]
    intro e
    apply hne
    rw [← List.map_append] at e
    exact List.map_eq_nil_iff.1 e
  · intro x
    exact Search.occ_mem hf (by simp) after before region x

example : LinesOf 1 2 "one\n".toList "two\nthree".toList "\nfour".toList :=
  ⟨by decide, by decide, by decide, by decide⟩

example : plain id "one\ntwo\nthree\nfour".toList "o".toList (.lines 1 2) 0 false =
    .ok [⟨6, 7, "o".toList, "two".toList, 1, 2⟩] := by decide +kernel

/-- C110 fails for scopes beginning with the first line: its first character is not searched. -/
theorem C110_first_line_violated :
    plain id "ab\nab".toList "ab".toList (.lines 0 1) 0 false = .ok [⟨3, 5, "ab".toList, "ab".toList, 1, 0⟩] ∧
      LinesOf 0 1 [] "ab\nab".toList [] ∧ Occurs "ab".toList "ab\nab".toList 0 :=
  ⟨by decide +kernel, ⟨by decide, by decide, by decide, by decide⟩, [], "\nab".toList, by decide, by decide⟩

/-- C110 fails for scopes after the end of the text, the empty last line included: the whole text is searched. -/
theorem C110_beyond_violated :
    plain id "cat".toList "c".toList (.lines 5 9) 0 false = .ok [⟨0, 1, "c".toList, "cat".toList, 0, 0⟩] ∧
      plain id "cat\n".toList "c".toList (.lines 1 1) 0 false = .ok [⟨0, 1, "c".toList, "cat".toList, 0, 0⟩] ∧
      LinesOf 1 1 "cat\n".toList [] [] :=
  ⟨by decide +kernel, by decide +kernel, ⟨by decide, by decide, by decide, by decide⟩⟩

/-- C110 fails: the names of sections are not looked at. -/
theorem C110_sections_violated (fold : Str → Str) (cached pat : Str) (names : List Str) (max : Nat) (ww : Bool) :
    plain fold cached pat (.sections names) max ww = plain fold cached pat .all max ww := rfl

/-- C110 fails: asking for whole words finds parts of words. -/
theorem C110_whole_words_violated :
    plain id "concat".toList "cat".toList .all 0 true = .ok [⟨3, 6, "cat".toList, "concat".toList, 0, 3⟩] := by decide +kernel

/-- C110 fails: a range that begins behind the text, or in the middle of a character, stops the program. -/
theorem C110_range_violated :
    plain id "ab".toList "a".toList (.range 3 5) 0 false = .panic ∧ plain id "éa".toList "a".toList (.range 1 3) 0 false = .panic := by
  decide +kernel

/-- The stretch of the text that a scope stands for, as far as it is searched correctly. -/
inductive C110.Region : Scope → Str → Str → Str → Prop
  | all (s : Str) : Region .all [] s []
  | range (a s b : Str) : Region (.range (byteLen a) (byteLen a + byteLen s)) a s b
  | lines (first last : Nat) (a s b : Str) (h : LinesOf first last a s b) (h0 : 0 < first) (hne : s ++ b ≠ []) : Region (.lines first last) a s b

theorem C110.bounds {scope : Scope} {a s b : Str} (h : C110.Region scope a s b) :
    Scope.bounds (a ++ s ++ b) scope = (byteLen a, byteLen a + byteLen s) := by
  cases h with
  | all => simp [Scope.bounds]
  | range => simp only [Scope.bounds, byteLen_append]; rw [Nat.min_eq_left (by omega)]
  | lines first last a s b h h0 hne => exact bounds_lines h h0 hne

/-- C110: a search with a regular expression reports the matches in the part searched, in the order in which the expression finds them
there, of these the first `max`, each at its place in the whole text with its text, line, column and context.  (Missing: the scopes named
above.) -/
theorem C110_regex_partial (rx : Str → List (Nat × Nat)) (hrx : Finds rx) {scope : Scope} {before region after : Str}
    (h : C110.Region scope before region after) (max : Nat) (ww : Bool) :
    ∃ all : List Hit, regex (some rx) (before ++ region ++ after) scope max ww = .ok (if max > 0 then all.take max else all) ∧
      all.map (fun h => (h.start, h.fin)) = (rx region).map (fun m => (byteLen before + m.1, byteLen before + m.2)) ∧
      ∀ x ∈ all, ∃ a m b, region = a ++ m ++ b ∧ x = report (before ++ a) m (b ++ after) := by
  obtain ⟨hs, h1, h2, h3⟩ := regex_hits before region after (rx region) (hrx region)
  refine ⟨hs, ?_, h2, h3⟩
  have hsl : sliceBytes (before ++ region ++ after) (byteLen before) (byteLen before + byteLen region) = some region :=
    sliceBytes_append _ _ _
  simp only [regex, C110.bounds h, hsl]
  rw [regexLoop_spec _ _ _ _ _ _ h1 (by by_cases h : max = 0; exact .inl h; exact .inr (by simp; omega)), limit_nil]

/-- The matches of `[0-9]` in the examples. -/
def C110.digits (s : Str) : List (Nat × Nat) :=
  (Search.words Char.isDigit s 0 none).map fun w => (w.1, w.1 + byteLen w.2)

example : Finds C110.digits := by
  intro s x hx
  obtain ⟨⟨p, w⟩, hw, rfl⟩ := List.mem_map.1 hx
  obtain ⟨a, b, h1, h2, _⟩ := (Index.words_iff _ _ _ _).1 hw
  exact ⟨a, w, b, h1, by simp [h2]⟩

example : regex (some C110.digits) "a1\nb22\nc333".toList (.lines 1 2) 1 false =
    .ok [⟨4, 6, "22".toList, "b22".toList, 1, 1⟩] := by decide +kernel

/-- C110: a pattern that is no regular expression is refused. -/
theorem C110_regex_refused (text : Str) (scope : Scope) (max : Nat) (ww : Bool) : regex none text scope max ww = .err := rfl

/-- C110: replacing the matches of a regular expression — `parts` are the stretches between the matches and the matches themselves —
puts the replacement, as it stands, in place of every match and leaves everything else.  (Missing: limited scopes; a document changed
since it was indexed, for which it fails.) -/
theorem C110_regex_replace_partial (rx : Str → List (Nat × Nat)) (hrx : Finds rx) (d : Doc) (parts : List (Str × Str)) (rest rep : Str)
    (ht : d.text = whole parts rest) (hm : rx d.text = places 0 parts) (ww : Bool) :
    ∃ d', replaceFound (regex (some rx) d.text .all 0 ww) d rep = (.ok (), d') ∧ d'.text = whole (parts.map fun p => (p.1, rep)) rest := by
  obtain ⟨all, h1, h2, _⟩ := C110_regex_partial rx hrx (C110.Region.all d.text) 0 ww
  simp only [List.nil_append, List.append_nil, byteLen_nil, Nat.zero_add, Nat.lt_irrefl, gt_iff_lt, if_false] at h1 h2
  obtain ⟨d', h3, h4⟩ := replace_parts rep parts [] rest d (by rw [ht]; rfl)
  refine ⟨d', ?_, by rw [h4]; rfl⟩
  rw [h1]
  simp only [replaceFound]
  rw [h2, hm]
  simp only [List.map_id']
  exact h3

example : C110.digits "a1b22c".toList = places 0 [("a".toList, "1".toList), ("b".toList, "22".toList)] ∧
    whole [("a".toList, "1".toList), ("b".toList, "22".toList)] "c".toList = "a1b22c".toList := by decide +kernel

/-- C110 fails for a document that has been edited since it was indexed: other text is overwritten. -/
theorem C110_stale_violated :
    (replaceFound (plain id "one two".toList "two".toList .all 0 false) ⟨"a longer one two".toList, Stack.new ⟨50, 0, 100⟩⟩
      "2".toList).2.text = "a lo2r one two".toList := by decide +kernel

end Verif.Props
