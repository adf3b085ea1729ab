import Verif.Lemmas.Index
/-!
# C109: what the search indexes find
-/
namespace Verif.Props
open Verif Verif.Index Verif.Spec.Index
open Verif.Search (Hit)
open Verif.Spec.Srch (IsWordAt Occurs)
open Verif.Spec.Kara (Words)
open Verif.Doc Verif.Pos

/-- The word characters of the examples. -/
def C109.word (c : Char) : Bool := c.isAlphanum || c = '_'
/-- Lower case of the examples. -/
def C109.lower (s : Str) : Str := s.map Char.toLower

/-- C109: a search of the index finds every word of at least two bytes among whose bytes those of the query occur in order — the
query and the words in lower case unless case matters, where only the words are — and nothing else; each place is reported once, with the line, the column, the
whole line as context, and the query as text. -/
theorem C109_search (word : Char → Bool) (lower : Str → Str) (text pat : Str) (sensitive : Bool) (scope : Scope) :
    (∀ h : Hit, h ∈ search lower (some (build word lower text)) pat sensitive 0 scope ↔
      ∃ (n : Nat) (l w : Str) (col : Nat), WordIn word (lines text) n l w col ∧ 2 ≤ byteLen w ∧
        (utf8 (if sensitive then pat else lower pat)).Sublist (utf8 (lower w)) ∧ Wanted (lines text) n col scope ∧
        h = ⟨lineStart (lines text) n + col, lineStart (lines text) n + col + byteLen pat, pat, l, n, col⟩) ∧
    ((search lower (some (build word lower text)) pat sensitive 0 scope).map (·.start)).Nodup := by
  refine ⟨?_, search_nodup (entries_sorted word lower (lines text) 0 0 none).1 pat sensitive scope⟩
  intro h
  rw [mem_search]
  constructor
  · rintro ⟨k, e, hm, hs, hi, rfl⟩
    obtain ⟨n, l, w, col, hw, h2, rfl, rfl⟩ := mem_entries.1 hm
    have hn : n < (lines text).length := (List.getElem?_eq_some_iff.1 hw.1).1
    simp only [Nat.zero_add] at hi
    exact ⟨n, l, w, col, hw, h2, hs, (scope_iff hn scope).1 hi, by simp [hit]⟩
  · rintro ⟨n, l, w, col, hw, h2, hs, hi, rfl⟩
    have hn : n < (lines text).length := (List.getElem?_eq_some_iff.1 hw.1).1
    refine ⟨lower w, ⟨0 + lineStart (lines text) n + col, l, 0 + n, col, secAt none (lines text) n⟩,
      mem_entries.2 ⟨n, l, w, col, hw, h2, rfl, rfl⟩, hs, ?_, by simp [hit]⟩
    simp only [Nat.zero_add]
    exact (scope_iff hn scope).2 hi

example : search C109.lower (some (build C109.word C109.lower "[Events]\nHello World, a hello".toList)) "hel".toList false 0
    (.sections ["Events".toList]) =
    [⟨9, 12, "hel".toList, "Hello World, a hello".toList, 1, 0⟩, ⟨24, 27, "hel".toList, "Hello World, a hello".toList, 1, 15⟩] := by
  decide +kernel

/-- C109: with a limit, the results are the first so many of all. -/
theorem C109_limit (lower : Str → Str) (ix : List (Str × Index.Entry)) (pat : Str) (sensitive : Bool) (max : Nat) (scope : Scope) (h : 0 < max) :
    search lower (some ix) pat sensitive max scope = (search lower (some ix) pat sensitive 0 scope).take max := by
  simp [search, h]

example : (search C109.lower (some (build C109.word C109.lower "ab cab\nabc".toList)) "ab".toList false 2 .all).map (·.start) = [0, 7] := by
  decide +kernel

/-- C109: in a text without carriage returns the places reported are the places of the words found.  (Missing: texts with carriage
returns, for which it fails.) -/
theorem C109_place_partial {word : Char → Bool} {text l w : Str} {n col : Nat} (hr : '\r' ∉ text)
    (h : WordIn word (lines text) n l w col) :
    ∃ a b, text = a ++ w ++ b ∧ byteLen a = lineStart (lines text) n + col ∧ a.count '\n' = n := by
  obtain ⟨a, b, h1, h2, h3, _, _⟩ := line_place n text l hr h.1
  obtain ⟨x, y, h4, h5, _⟩ := h.2
  have hx : '\n' ∉ x := by
    intro hx
    have : l ∈ lines text := List.mem_of_getElem? h.1
    exact lines_no_lf this (h4 ▸ by simp [hx])
  refine ⟨a ++ x, y ++ b, ?_, ?_, ?_⟩
  · rw [h1, h4]; simp
  · rw [byteLen_append, h2, h5]
  · rw [List.count_append, h3, List.count_eq_zero.2 hx]; rfl

example : WordIn C109.word (lines "a b\nxy cd".toList) 1 "xy cd".toList "cd".toList 3 ∧
    lineStart (lines "a b\nxy cd".toList) 1 = 4 :=
  ⟨⟨by decide, "xy ".toList, [], by decide, by decide, by decide, by decide, by decide, by simp⟩, by decide⟩

/-- C109 fails with carriage returns: every line ended by two bytes moves the following places by one. -/
theorem C109_place_violated :
    (search C109.lower (some (build C109.word C109.lower "ab\r\ncd".toList)) "cd".toList false 0 .all).map (·.start) = [3] ∧
      ¬ Occurs "cd".toList "ab\r\ncd".toList 3 := by
  refine ⟨by decide +kernel, ?_⟩
  rintro ⟨a, b, h, hl⟩
  exact absurd (sliceBytes_iff.2 ⟨a, b, h, hl, rfl⟩) (by decide +kernel)

/-- C109 fails: what is reported as found need not stand there — the range has the length of the query but begins where the word
begins, and the query may be scattered over the word. -/
theorem C109_found_violated :
    (search C109.lower (some (build C109.word C109.lower "hello".toList)) "ello".toList false 0 .all) =
        [⟨0, 4, "ello".toList, "hello".toList, 0, 0⟩] ∧ ¬ Occurs "ello".toList "hello".toList 0 ∧
      (search C109.lower (some (build C109.word C109.lower "hello".toList)) "ho".toList false 0 .all) =
        [⟨0, 2, "ho".toList, "hello".toList, 0, 0⟩] ∧ ∀ off, ¬ Occurs "ho".toList "hello".toList off := by
  refine ⟨by decide +kernel, ?_, by decide +kernel, ?_⟩
  · rintro ⟨a, b, h, hl⟩
    exact absurd (sliceBytes_iff.2 ⟨a, b, h, hl, rfl⟩) (by decide +kernel)
  · rintro off ⟨a, b, h, hl⟩
    exact absurd (containsStr_iff.2 ⟨a, b, h⟩) (by decide +kernel)

/-- C109 fails: with case distinguished, a query with a capital letter finds nothing, for the words are kept in lower case only. -/
theorem C109_case_violated :
    search C109.lower (some (build C109.word C109.lower "Hello".toList)) "Hello".toList true 0 .all = [] ∧
      Occurs "Hello".toList "Hello".toList 0 :=
  ⟨by decide +kernel, [], [], by decide, by decide⟩

/-- C109 fails: replacing what was found destroys other text. -/
theorem C109_replace_violated :
    (findReplace C109.lower (some (build C109.word C109.lower "hello".toList)) ⟨"hello".toList, Stack.new ⟨50, 0, 100⟩⟩ "ello".toList
      "X".toList false 0 .all).2.text = "Xo".toList := by decide +kernel

/-- C109: the simple index finds the words, kept apart by white space, that contain the query, both in lower case, whatever the options
say; it reports them at the start of the line plus the number of the word.  `order` is any order of the different words. -/
theorem C109_linear (lower : Str → Str) (text pat : Str) (max : Nat) (order : List Str)
    (ho : ∀ k, k ∈ order ↔ ∃ e, (k, e) ∈ linear lower 0 0 (lines text)) (h : Hit) :
    h ∈ linearSearch lower (linear lower 0 0 (lines text)) order pat max ↔
      ∃ (n i : Nat) (l w : Str) (ws : List Str), (lines text)[n]? = some l ∧ Words l ws ∧ ws[i]? = some w ∧
        (∃ a b, lower w = a ++ lower pat ++ b) ∧
        h = ⟨lineStart (lines text) n + i, lineStart (lines text) n + i + byteLen pat, pat, l, n, i⟩ := by
  rw [mem_linearSearch ho]
  constructor
  · rintro ⟨k, e, hm, hs, rfl⟩
    obtain ⟨n, i, l, w, h1, h2, h3⟩ := mem_linear.1 hm
    injection h3 with h3 h4
    subst h3; subst h4
    exact ⟨n, i, l, w, _, h1, words_words l, h2, containsStr_iff.1 hs, by simp [hit]⟩
  · rintro ⟨n, i, l, w, ws, h1, h2, h3, h4, rfl⟩
    rw [← Karaoke.words_eq h2] at h3
    exact ⟨_, _, mem_linear.2 ⟨n, i, l, w, h1, h3, rfl⟩, containsStr_iff.2 h4, by simp [hit]⟩

example : linearSearch C109.lower (linear C109.lower 0 0 (lines "a b\nThe cat".toList)) ["cat".toList, "the".toList, "a".toList, "b".toList]
    "AT".toList 0 = [⟨5, 7, "AT".toList, "The cat".toList, 1, 1⟩] := by decide +kernel

/-- C109 fails for the simple index: the second word of a line is reported one byte after the first. -/
theorem C109_linear_place_violated :
    (linearSearch C109.lower (linear C109.lower 0 0 (lines "The cat".toList)) ["cat".toList, "the".toList] "cat".toList 0).map (·.start) = [1] ∧
      ¬ Occurs "cat".toList "The cat".toList 1 := by
  refine ⟨by decide +kernel, ?_⟩
  rintro ⟨a, b, h, hl⟩
  exact absurd (sliceBytes_iff.2 ⟨a, b, h, hl, rfl⟩) (by decide +kernel)

/-- C109 fails for the simple index: the limit is not kept. -/
theorem C109_linear_limit_violated :
    (linearSearch C109.lower (linear C109.lower 0 0 (lines "cat cat".toList)) ["cat".toList] "cat".toList 1).length = 2 := by decide +kernel

/-- C109 fails for the simple index: replacing goes from front to back with the places of the text before. -/
theorem C109_linear_replace_violated :
    (Index.replaceAll "longer".toList (linearSearch C109.lower (linear C109.lower 0 0 (lines "ab\nab\nab".toList)) ["ab".toList] "ab".toList 0)
      ⟨"ab\nab\nab".toList, Stack.new ⟨50, 0, 100⟩⟩).2.text = "lonlonlongerrr\nab\nab".toList := by decide +kernel

end Verif.Props
