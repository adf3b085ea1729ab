import Verif.Lemmas.Search
/-!
# C29 — search and replace
-/
namespace Verif.Props
open Verif Verif.Search Verif.Doc Verif.Pos Verif.Spec.Srch

/-- **C29, searching, partial.** Comparing characters after a map `f` that keeps their encoded size (the
identity for case-sensitive search, ASCII lower-casing otherwise): the search ends, and reports exactly the
places where the pattern occurs, in increasing order and each once, cut off after `max` results when `max`
is not zero.  Each result carries the matched text, the number of the line, the column (in bytes) and the
whole line.  Missing: patterns starting with a character of more than one byte, the empty pattern and case
folding that changes lengths (`C29_multibyte_violated`, `C29_empty_violated`, `C29_folding_violated`), and
the word index (`C29_index_violated`). -/
theorem C29_search_partial (f : Char → Char) (hf : ∀ c, (f c).utf8Size = c.utf8Size) (text : Str) (p0 : Char)
    (pt : Str) (hp : p0.utf8Size = 1) (max : Nat) :
    ∃ all : List Hit,
      basicSearch (·.map f) text (p0 :: pt) none max = .ok (if max > 0 then all.take max else all) ∧
      all.Pairwise (fun h k => h.start < k.start) ∧
      ∀ h, h ∈ all ↔ ∃ a m b, text = a ++ m ++ b ∧ m.map f = (p0 :: pt).map f ∧
        h = ⟨byteLen a, byteLen a + byteLen m, m, lastLine a ++ firstLine (m ++ b), a.count '\n',
          byteLen (lastLine a)⟩ := by
  refine ⟨occ f ((p0 :: pt).map f) [] [] text, ?_, (occ_sorted _ _ _ _ _).1, ?_⟩
  · unfold basicSearch
    have hs : sliceBytes (text.map f) 0 (byteLen (text.map f)) = some (text.map f) := by
      have := sliceBytes_append [] (text.map f) []
      simpa using this
    simp only [hs]
    have := loop_spec hf (p0 := f p0) (pt := pt.map f) (by rw [hf]; exact hp) [] [] max (byteLen (text.map f) + 2) [] text []
      (by rw [byteLen_map hf]; omega) (by simp; omega)
    simp only [List.nil_append, List.append_nil, byteLen_nil] at this
    rw [List.map_cons, this]
    unfold limit
    simp
  · intro h
    rw [occ_mem hf (by simp)]
    simp only [List.nil_append, List.append_nil]
    rfl

example : basicSearch (·.map id) "a\nban ana".toList "an".toList none 0 =
    .ok [⟨3, 5, "an".toList, "ban ana".toList, 1, 1⟩, ⟨6, 8, "an".toList, "ban ana".toList, 1, 4⟩] := by decide
example : (basicSearch (·.map Char.toLower) "AN an".toList "An".toList none 0) =
    .ok [⟨0, 2, "AN".toList, "AN an".toList, 0, 0⟩, ⟨3, 5, "an".toList, "AN an".toList, 0, 3⟩] := by decide

/-- **C29, searching, partial.** The reported offsets of a case-sensitive search without limit are exactly
the offsets at which the pattern occurs.
Missing: patterns that are empty or begin with a character of several bytes (`C29_empty_violated`, `C29_multibyte_violated`), and
search without regard to case (`C29_folding_violated`). -/
theorem C29_offsets_partial (text : Str) (p0 : Char) (pt : Str) (hp : p0.utf8Size = 1) :
    ∃ hits, basicSearch id text (p0 :: pt) none 0 = .ok hits ∧
      ∀ off, off ∈ hits.map (·.start) ↔ Occurs (p0 :: pt) text off := by
  obtain ⟨all, h1, _, h3⟩ := C29_search_partial id (fun _ => rfl) text p0 pt hp 0
  refine ⟨all, ?_, ?_⟩
  · have : (fun s : Str => s.map id) = id := by funext s; simp
    rw [this] at h1
    simpa using h1
  · intro off
    constructor
    · intro h
      obtain ⟨x, hx, rfl⟩ := List.mem_map.1 h
      obtain ⟨a, m, b, e1, e2, rfl⟩ := (h3 x).1 hx
      simp only [List.map_id] at e2
      subst e2
      exact ⟨a, b, e1, rfl⟩
    · rintro ⟨a, b, e1, rfl⟩
      exact List.mem_map.2 ⟨_, (h3 _).2 ⟨a, p0 :: pt, b, e1, rfl, rfl⟩, rfl⟩

/-- **C29, searching in a range, partial.** With a range as scope the results are exactly the occurrences
lying inside the range.
Missing: patterns that are empty or begin with a character of several bytes (`C29_empty_violated`, `C29_multibyte_violated`), and
search without regard to case (`C29_folding_violated`). -/
theorem C29_range_partial (before region post : Str) (p0 : Char) (pt : Str) (hp : p0.utf8Size = 1) :
    ∃ hits, basicSearch id (before ++ region ++ post) (p0 :: pt)
        (some ⟨byteLen before, byteLen before + byteLen region⟩) 0 = .ok hits ∧
      hits.Pairwise (fun h k => h.start < k.start) ∧
      ∀ off, off ∈ hits.map (·.start) ↔ ∃ k, Occurs (p0 :: pt) region k ∧ off = byteLen before + k := by
  refine ⟨occ id (p0 :: pt) post before region, ?_, (occ_sorted _ _ _ _ _).1, ?_⟩
  · unfold basicSearch
    have hs : sliceBytes (before ++ region ++ post) (byteLen before) (byteLen before + byteLen region) = some region :=
      sliceBytes_append _ _ _
    simp only [id_eq]
    rw [Nat.min_eq_left (by simp only [byteLen_append]; omega), hs]
    have := loop_spec (f := id) (fun _ => rfl) (p0 := p0) (pt := pt) hp before post 0 (byteLen region + 2) [] region []
      (by omega) (.inl rfl)
    simp only [List.nil_append, List.append_nil, byteLen_nil, List.map_id] at this
    simp only
    rw [this]
    unfold limit; simp
  · intro off
    constructor
    · intro h
      obtain ⟨x, hx, rfl⟩ := List.mem_map.1 h
      obtain ⟨a, m, b, e1, e2, rfl⟩ := (occ_mem (f := id) (fun _ => rfl) (by simp) _ _ _ _).1 hx
      simp only [List.map_id] at e2
      subst e2
      exact ⟨byteLen a, ⟨a, b, e1, rfl⟩, by simp [hitAt]⟩
    · rintro ⟨k, ⟨a, b, e1, rfl⟩, rfl⟩
      exact List.mem_map.2 ⟨hitAt (before ++ a) (p0 :: pt) (b ++ post),
        (occ_mem (f := id) (fun _ => rfl) (by simp) _ _ _ _).2 ⟨a, p0 :: pt, b, e1, by simp, rfl⟩, by simp [hitAt]⟩

example : basicSearch id "xaxax".toList "a".toList (some ⟨2, 5⟩) 0 = .ok [⟨3, 4, ['a'], "xaxax".toList, 0, 3⟩] := by
  decide

/-- **C29, disagreement.** Searching for a text that starts with a character of two bytes panics as soon as
it is found. -/
theorem C29_multibyte_violated :
    ¬ ∀ (text pat : Str), pat ≠ [] → ∃ hits, basicSearch id text pat none 0 = .ok hits := by
  intro h
  obtain ⟨hits, hh⟩ := h "é".toList "é".toList (by simp)
  have : basicSearch id "é".toList "é".toList none 0 = .panic := by decide
  rw [this] at hh; simp at hh

/-- **C29, disagreement.** So does searching for the empty text. -/
theorem C29_empty_violated : ¬ ∀ (text : Str), ∃ hits, basicSearch id text [] none 0 = .ok hits := by
  intro h
  obtain ⟨hits, hh⟩ := h "a".toList
  have : basicSearch id "a".toList [] none 0 = .panic := by decide
  rw [this] at hh; simp at hh

/-- `to_lowercase` on ASCII letters and on `İ` (U+0130), whose lower case is `i` and U+0307. -/
def lowerSample (s : Str) : Str := s.flatMap (fun c => if c = 'İ' then ['i', '̇'] else [c.toLower])

/-- **C29, disagreement.** Case-insensitive search uses offsets of the lower-cased text in the original
one; where lower-casing changes lengths the search panics. -/
theorem C29_folding_violated :
    ¬ ∀ (text pat : Str), pat ≠ [] → (∀ c ∈ pat, c.utf8Size = 1) →
        ∃ hits, basicSearch lowerSample text pat none 0 = .ok hits := by
  intro h
  obtain ⟨hits, hh⟩ := h "İx".toList "x".toList (by decide) (by decide)
  have : basicSearch lowerSample "İx".toList "x".toList none 0 = .panic := by decide
  rw [this] at hh; simp at hh

/-- **C29, disagreement.** Once the word index is built (default features), an occurrence that is not a
whole word is not found, and a case-sensitive search for a capitalised word finds nothing. -/
theorem C29_index_violated :
    ¬ ∀ (text pat : Str) (off : Nat), pat ≠ [] → Occurs pat text off →
        off ∈ (indexSearch Char.isAlphanum (·.map Char.toLower) id text pat 0).map (·.1) := by
  intro h
  have := h "hello".toList "ell".toList 1 (by decide) ⟨['h'], ['o'], by decide, by decide⟩
  revert this; decide

example : indexSearch Char.isAlphanum (·.map Char.toLower) id "Hello".toList "Hello".toList 0 = [] := by decide

/-- **C29, partial.** What the indexed search does report: exactly the maximal words equal to the pattern up
to case, in increasing order, each with the pattern's length.
Missing: occurrences that are not whole words, which the index misses (`C29_index_violated`). -/
theorem C29_index_partial (word : Char → Bool) (lower : Str → Str) (text pat : Str) :
    let hits := indexSearch word lower lower text pat 0
    hits.Pairwise (fun a b => a.1 < b.1) ∧
    ∀ x y, (x, y) ∈ hits ↔ (∃ w, IsWordAt word text w x ∧ lower w = lower pat) ∧ y = x + byteLen pat := by
  intro hits
  have hh : hits = ((words word text 0 none).filter (fun p => lower p.2 = lower pat)).map
      (fun p => (p.1, p.1 + byteLen pat)) := rfl
  rw [hh]
  constructor
  · rw [List.pairwise_map]
    exact ((words_sorted text 0 none (by simp)).1).filter _
  · intro x y
    have hw : ∀ p w, (p, w) ∈ words word text 0 none ↔ IsWordAt word text w p := by
      intro p w
      have := words_mem (word := word) (p := p) (w := w) text none [] (by intro c hc; simp at hc)
      rw [show byteLen ([] : Str) = 0 from rfl] at this
      rw [this]; simp [base]
    simp only [List.mem_map, List.mem_filter, decide_eq_true_eq, Prod.exists, Prod.mk.injEq]
    constructor
    · rintro ⟨p, w, ⟨h1, h2⟩, rfl, rfl⟩
      exact ⟨⟨w, (hw _ _).1 h1, h2⟩, rfl⟩
    · rintro ⟨⟨w, h1, h2⟩, rfl⟩
      exact ⟨x, w, ⟨(hw _ _).2 h1, h2⟩, rfl, rfl⟩

example : indexSearch Char.isAlphanum (·.map Char.toLower) (·.map Char.toLower) "One two, ONE".toList "one".toList 0 =
    [(0, 3), (9, 12)] := by decide

/-- **C29, replacing, partial.** When no two occurrences overlap, find-and-replace succeeds and leaves the
text with every occurrence substituted and everything else in place.  Missing: overlapping occurrences
(`C29_replace_violated`) and whatever searching itself misses. -/
theorem C29_replace_partial (d : Doc) (p0 : Char) (pt rep : Str) (hp : p0.utf8Size = 1)
    (hno : NoOverlap (p0 :: pt) d.text) :
    ∃ d', findReplace d d.text (p0 :: pt) rep 0 = (.ok (), d') ∧ Subst (p0 :: pt) rep d.text d'.text := by
  have hs : basicSearch id d.text (p0 :: pt) none 0 = .ok (occ id (p0 :: pt) [] [] d.text) := by
    unfold basicSearch
    have hsl : sliceBytes d.text 0 (byteLen d.text) = some d.text := by
      have := sliceBytes_append [] d.text []
      simpa using this
    simp only [id_eq, hsl]
    have := loop_spec (f := id) (fun _ => rfl) (p0 := p0) (pt := pt) hp [] [] 0 (byteLen d.text + 2) [] d.text []
      (by omega) (.inl rfl)
    simp only [List.nil_append, List.append_nil, byteLen_nil, List.map_id] at this
    rw [this]
    unfold limit; simp
  obtain ⟨d', out, h1, h2, h3⟩ := replace_all (pat := p0 :: pt) (rep := rep) (by simp) d.text.length [] d.text d
    (Nat.le_refl _) rfl hno
  refine ⟨d', ?_, ?_⟩
  · unfold findReplace
    rw [hs]
    exact h1
  · rw [h2]; exact h3

example : (findReplace ⟨"one two one".toList, Stack.new ⟨10, 0, 0⟩⟩ "one two one".toList "one".toList "1".toList 0).2.text =
    "1 two 1".toList := by decide

/-- **C29, disagreement.** Overlapping occurrences: removing `aaa` from `aaaa` fails (and leaves `a`), and replacing
`aa` by `b` in `aaa` gives `b` instead of `ba`. -/
theorem C29_replace_violated :
    ¬ ∀ (d : Doc) (p0 : Char) (pt rep : Str), p0.utf8Size = 1 →
      ∃ d', findReplace d d.text (p0 :: pt) rep 0 = (.ok (), d') ∧ Subst (p0 :: pt) rep d.text d'.text := by
  intro h
  obtain ⟨d', h1, _⟩ := h ⟨"aaaa".toList, Stack.new ⟨10, 0, 0⟩⟩ 'a' ['a', 'a'] [] (by decide)
  have : (findReplace ⟨"aaaa".toList, Stack.new ⟨10, 0, 0⟩⟩ "aaaa".toList "aaa".toList [] 0).1 = .err := by decide
  have h1' := congrArg Prod.fst h1
  simp only at h1'
  have e : (findReplace ⟨"aaaa".toList, Stack.new ⟨10, 0, 0⟩⟩ "aaaa".toList "aaa".toList [] 0).1 =
      (.ok () : Outcome Unit) := h1'
  rw [this] at e; simp at e

example : (findReplace ⟨"aaa".toList, Stack.new ⟨10, 0, 0⟩⟩ "aaa".toList "aa".toList "b".toList 0).2.text = "b".toList := by
  decide
/-- The failed replacement has already changed the document. -/
example : (findReplace ⟨"aaaa".toList, Stack.new ⟨10, 0, 0⟩⟩ "aaaa".toList "aaa".toList [] 0).2.text = "a".toList := by
  decide

end Verif.Props
