import Verif.Lemmas.IndexUpdate
/-!
# C111: keeping the word index up to date
-/
namespace Verif.Props
open Verif Verif.Pos Verif.IndexUpdate Verif.Spec.Srch Verif.Spec.IndexUpdate

/-- The word characters of the examples. -/
def C111.word (c : Char) : Bool := c.isAlphanum || c = '_'

/-- C111: building the index gives exactly the words of the text. -/
theorem C111_build (word : Char → Bool) (lower : Str → Str) (text : Str) :
    (build word lower text).cached = text ∧ Exact word lower text (build word lower text).words :=
  ⟨rfl, exact_build word lower text⟩

example : (build C111.word id "the cat, the".toList).words "the".toList = [0, 9] := by decide +kernel

/-- C111: after more than ten changes, or changes of more than a thousand bytes, updating gives exactly the words of the new text. -/
theorem C111_rebuild (word : Char → Bool) (lower : Str → Str) (st : St) (text : Str) (changes : List Range)
    (h : 10 < changes.length ∨ 1000 < (changes.map fun r => r.fin - r.start).sum) :
    ∃ st', update word lower st text changes = .ok st' ∧ st'.cached = text ∧ Exact word lower text st'.words := by
  refine ⟨build word lower text, ?_, rfl, exact_build word lower text⟩
  unfold update
  rw [if_neg, if_pos h]
  rintro rfl
  simp at h

example : (1000 : Nat) < ([⟨0, 2000⟩].map fun r : Range => r.fin - r.start).sum := by decide

/-- C111: after one smaller change — `x` replaced by `y` between `a` and `b` — the index has every word of the new text that ends before the
change and every word inside the stretch `v` from 50 bytes before to 100 bytes behind its start; and what it has before that stretch are
words of the text.  Here the stretch begins and ends between characters.  (Missing: words behind the stretch, words that are not
in the text, several changes and stretches that cut characters; all of these fail.) -/
theorem C111_single_partial (word : Char → Bool) (lower : Str → Str) (st : St) (a x y b u v t : Str)
    (hst : Exact word lower (a ++ x ++ b) st.words) (hx : byteLen x ≤ 1000) (hw : a ++ y ++ b = u ++ v ++ t)
    (hu : byteLen u = byteLen a - 50) (hv : byteLen (u ++ v) = min (byteLen a + 100) (byteLen (a ++ y ++ b))) :
    ∃ st', update word lower st (a ++ y ++ b) [⟨byteLen a, byteLen a + byteLen x⟩] = .ok st' ∧ st'.cached = a ++ y ++ b ∧
      (∀ w p, IsWordAt word (a ++ y ++ b) w p →
        (p + byteLen w < byteLen a ∨ byteLen u ≤ p ∧ (p + byteLen w < byteLen (u ++ v) ∨ t = [])) → p ∈ st'.words (lower w)) ∧
      ∀ k p, p ∈ st'.words k → p < byteLen u → ∃ w, IsWordAt word (a ++ x ++ b) w p ∧ lower w = k ∧
        (p + byteLen w < byteLen a → IsWordAt word (a ++ y ++ b) w p) := by
  obtain ⟨m, adj, h1, h2, h3⟩ := update_single word lower st a x y b u v t hx hw hu hv
  refine ⟨⟨a ++ y ++ b, m⟩, h2, rfl, ?_, ?_⟩
  · intro w p hp hc
    rw [h3]
    rcases hc with hc | ⟨hc, hc'⟩
    · left
      refine ⟨p, ?_, .inl ⟨by omega, rfl⟩⟩
      rw [List.append_assoc] at hp hst
      exact ((hst _).2 p).2 ⟨w, word_prefix hp hc _, rfl⟩
    · right
      rw [hw] at hp
      obtain ⟨q, hq1, hq2⟩ := word_inside hp hc hc'
      exact ⟨q, mem_extract.2 ⟨w, hq2, rfl⟩, hq1⟩
  · intro k p hp hlt
    rcases (h3 k p).1 hp with ⟨q, hq, hc⟩ | ⟨q, _, hq⟩
    · rcases hc with ⟨hc, rfl⟩ | ⟨hc, rfl⟩
      · obtain ⟨w, hw1, hw2⟩ := ((hst k).2 p).1 hq
        refine ⟨w, hw1, hw2, ?_⟩
        intro h
        rw [List.append_assoc] at hw1 ⊢
        exact word_prefix hw1 h _
      · unfold satAdd at hlt
        omega
    · omega

example : (match update C111.word id (build C111.word id "the big cat".toList) "the small cat".toList [⟨4, 7⟩] with
    | .ok st => (st.words "the".toList, st.words "big".toList, st.words "small".toList)
    | _ => ([], [], [])) = ([0], [], [4]) := by decide +kernel

/-- C111 fails: behind the change the old places are moved by a guess and stay next to the right ones. -/
theorem C111_shift_violated :
    (match update C111.word id (build C111.word id "a cat".toList) "bbb cat".toList [⟨0, 1⟩] with
      | .ok st => st.words "cat".toList
      | _ => []) = [3, 4] ∧ ¬ ∃ w, IsWordAt C111.word "bbb cat".toList w 3 := by
  refine ⟨by decide +kernel, ?_⟩
  rintro ⟨w, h⟩
  have : (3, w) ∈ Search.words C111.word "bbb cat".toList 0 none := (Index.words_iff _ _ _ _).2 h
  rw [show Search.words C111.word "bbb cat".toList 0 none = [(0, "bbb".toList), (4, "cat".toList)] by decide +kernel] at this
  simp at this

/-- C111 fails: reading a stretch of the text again makes words of the pieces at its ends. -/
theorem C111_cut_violated :
    (match update C111.word id (build C111.word id ("word".toList ++ List.replicate 48 ' ')) ("word".toList ++ List.replicate 48 ' ' ++ ['x'])
        [⟨52, 52⟩] with
      | .ok st => (st.words "word".toList, st.words "rd".toList)
      | _ => ([], [])) = ([0], [2]) := by decide +kernel

/-- C111 fails: with characters of several bytes near the change the program stops; so it does when the guesses about earlier changes lead
behind the end of the text. -/
theorem C111_panic_violated :
    (match update C111.word id (build C111.word id (List.replicate 30 'é' ++ ['x'])) (List.replicate 30 'é' ++ ['x', '!']) [⟨61, 61⟩] with
      | .panic => true
      | _ => false) = true ∧
    (match update C111.word id (build C111.word id "one two three".toList) "1 two 3".toList [⟨0, 3⟩, ⟨8, 13⟩] with
      | .panic => true
      | _ => false) = true := by decide +kernel

/-- C111 fails: without ranges of changes the old text is kept, whatever the document has become. -/
theorem C111_no_ranges_violated (word : Char → Bool) (lower : Str → Str) (st : St) (text : Str) :
    update word lower st text [] = .ok st := by
  unfold update; rw [if_pos rfl]

end Verif.Props
