import Verif.Lemmas.Cursor
import Verif.Props.LineCol
/-!
# C131 — edits at a position and over a selection
-/
namespace Verif.Props.Cursor
open Verif Verif.Pos Verif.Doc Verif.LineCol Verif.Cursor Verif.Spec Verif.Spec.Cursor

/-- A document for the examples. -/
def doc (s : String) : Doc := ⟨s.toList, Stack.new ⟨50, 1000000, 0⟩⟩

/-- **C131.** The lines that the editor counts are those of the specification: put together they are the text, all but the last end in a
line break, and CR LF is one break. -/
theorem C131_lines (s : Str) : Lines (ropeLines s) ∧ (ropeLines s).flatten = s :=
  ⟨(ropeLines_lines s).1, (ropeLines_spec s).1⟩

example : ropeLines "a\r\nb\u2028c".toList = ["a\r\n".toList, "b\u2028".toList, "c".toList] := by decide

/-- **C131.** Text inserted at a position between two characters stands there and nothing else changes; so does a line break; beyond the
text nothing is inserted and the document, history included, stays as it was. -/
theorem C131_insert (d : Doc) (t : Str) :
    (∀ a b, d.text = a ++ b →
      (insertText d (byteLen a) t).1 = .ok () ∧ (insertText d (byteLen a) t).2.text = a ++ t ++ b ∧
      (insertLine d (byteLen a)).1 = .ok () ∧ (insertLine d (byteLen a)).2.text = a ++ ['\n'] ++ b) ∧
    ∀ pos, byteLen d.text < pos → insertText d pos t = (.err, d) ∧ insertLine d pos = (.err, d) := by
  refine ⟨fun a b h => ?_, fun pos h => ?_⟩
  · have h1 := empty_at d a b t h
    have h2 := empty_at d a b ['\n'] h
    exact ⟨h1.1, h1.2, h2.1, h2.2⟩
  · constructor <;> simp [insertLine, insertText, Doc.replace, textRange, Range.empty, h]

example : (insertText (doc "né") 3 "!".toList).2.text = "né!".toList := by decide

/-- **C131.** Deleting forward removes the characters after the position that fill the given number of *bytes*, deleting backward those
before it; backward the number may go beyond the beginning of the text, forward it is refused beyond the end.  Missing: characters of more
than one byte, see `C131_characters_violated`. -/
theorem C131_delete_partial (d : Doc) :
    (∀ a m b, d.text = a ++ m ++ b → (delete d (byteLen a) (byteLen m)).1 = .ok () ∧ (delete d (byteLen a) (byteLen m)).2.text = a ++ b) ∧
    (∀ a m b, d.text = a ++ m ++ b →
      (backspace d (byteLen a + byteLen m) (byteLen m)).1 = .ok () ∧ (backspace d (byteLen a + byteLen m) (byteLen m)).2.text = a ++ b) ∧
    (∀ m b n, d.text = m ++ b → byteLen m ≤ n → (backspace d (byteLen m) n).1 = .ok () ∧ (backspace d (byteLen m) n).2.text = b) ∧
    ∀ pos n, byteLen d.text < pos + n → delete d pos n = (.err, d) := by
  refine ⟨fun a m b h => ?_, fun a m b h => ?_, fun m b n h hn => ?_, fun pos n h => ?_⟩
  · rw [delete, new_of_le (by omega)]; exact delete_at d a m b h
  · rw [backspace, new_of_le (by omega), Nat.add_sub_cancel]; exact delete_at d a m b h
  · rw [backspace, new_of_le (by omega), Nat.sub_eq_zero_of_le hn]
    have := delete_at d [] m b (by simpa using h)
    simpa using this
  · rw [delete, new_of_le (by omega)]; simp [Doc.delete, textRange, h]

example : (delete (doc "Hello") 1 3).2.text = "Ho".toList ∧ (backspace (doc "Hello") 2 7).2.text = "llo".toList := by decide

/-- **C131.** Where the code departs from its documentation ("a number of characters"): asked to delete one character, it deletes none and
reports success when the character takes two bytes; asked to delete the last two characters, it deletes one. -/
theorem C131_characters_violated :
    (delete (doc "éa") 0 1).1 = .ok () ∧ (delete (doc "éa") 0 1).2.text = "éa".toList ∧
      (backspace (doc "a日本") 7 2).1 = .ok () ∧ (backspace (doc "a日本") 7 2).2.text = "a日".toList := by decide

/-- **C131.** Replacing up to the end of the line replaces the rest of the line but for the last character of its line break, whichever
break it is; on the last line, the whole rest of the text.  All other text stays.  Missing: the CR of CR LF, see
`C131_crlf_violated`. -/
theorem C131_line_end_partial (d : Doc) (t : Str) (pre : List Str) (x y : Str) :
    (∀ c next post, ropeLines d.text = pre ++ (x ++ y ++ [c]) :: next :: post →
      (replaceToLineEnd d (byteLen (pre.flatten ++ x)) t).1 = .ok () ∧
      (replaceToLineEnd d (byteLen (pre.flatten ++ x)) t).2.text = pre.flatten ++ x ++ t ++ [c] ++ (next :: post).flatten) ∧
    (ropeLines d.text = pre ++ [x ++ y] →
      (replaceToLineEnd d (byteLen (pre.flatten ++ x)) t).1 = .ok () ∧
      (replaceToLineEnd d (byteLen (pre.flatten ++ x)) t).2.text = pre.flatten ++ x ++ t) := by
  have hf := (ropeLines_spec d.text).1
  constructor
  · intro c next post h
    have hb : HasByte (ropeLines d.text) (byteLen (pre.flatten ++ x)) pre.length := by
      rw [h, List.append_assoc]; exact has_start pre x (y ++ [c]) (next :: post) (.inl (by simp))
    have hle := has_le hb
    have ht : d.text = (pre.flatten ++ x) ++ y ++ c :: (next :: post).flatten := by
      rw [← hf, h]; simp
    have hp := utf8Size_pos c
    have e : lineToByte (ropeLines d.text) (pre.length + 1) - 1 = byteLen (pre.flatten ++ x) + byteLen y + (c.utf8Size - 1) := by
      rw [lineToByte, h, List.take_append, List.take_of_length_le (by omega), Nat.add_sub_cancel_left, List.take_succ_cons]
      simp only [List.take_zero, List.flatten_append, List.flatten_cons, List.flatten_nil, byteLen_append, byteLen_cons, byteLen_nil]
      omega
    have hlen : pre.length + 1 < (ropeLines d.text).length := by rw [h]; simp
    have := replace_inside d (pre.flatten ++ x) y (next :: post).flatten t c (c.utf8Size - 1) (by omega) ht
    rw [replaceToLineEnd, if_neg (by rw [hf] at hle; omega)]
    simp only [byteToLine_has _ _ _ hb]
    rw [if_pos hlen, e, new_of_le (by omega)]
    refine ⟨this.1, this.2.trans ?_⟩
    simp
  · intro h
    have hb : HasByte (ropeLines d.text) (byteLen (pre.flatten ++ x)) pre.length := by
      rw [h]; exact has_start pre x y [] (.inr rfl)
    have hle := has_le hb
    have ht : d.text = (pre.flatten ++ x) ++ y ++ [] := by
      rw [← hf, h]; simp
    have hlen : ¬ pre.length + 1 < (ropeLines d.text).length := by rw [h]; simp
    have := replace_at d (pre.flatten ++ x) y [] t ht
    rw [replaceToLineEnd, if_neg (by rw [hf] at hle; omega)]
    simp only [byteToLine_has _ _ _ hb]
    rw [if_neg hlen, show byteLen d.text = byteLen (pre.flatten ++ x) + byteLen y by rw [ht]; simp only [byteLen_append, byteLen_nil, Nat.add_zero], new_of_le (by omega)]
    refine ⟨this.1, this.2.trans ?_⟩
    simp

example : ropeLines (doc "a\nbéc\u2028d").text = ["a\n".toList] ++ ("b".toList ++ "éc".toList ++ ['\u2028']) :: "d".toList :: [] ∧
    (replaceToLineEnd (doc "a\nbéc\u2028d") 3 "X".toList).2.text = "a\nbX\u2028d".toList := by decide

/-- **C131.** Where the code departs from it: on a line that ends in CR LF the CR is replaced too, so that the line then ends in LF. -/
theorem C131_crlf_violated :
    (replaceToLineEnd (doc "ab\r\ncd") 1 "X".toList).1 = .ok () ∧ (replaceToLineEnd (doc "ab\r\ncd") 1 "X".toList).2.text = "aX\ncd".toList := by
  decide

/-- **C131.** The selected text is the text between the two places, and wrapping puts the one tag before it and the other after it. -/
theorem C131_wrap (d : Doc) (a m b o c : Str) (h : d.text = a ++ m ++ b) :
    selected d ⟨byteLen a, byteLen a + byteLen m⟩ = .ok m ∧
    (wrap d ⟨byteLen a, byteLen a + byteLen m⟩ o c).1 = .ok () ∧
    (wrap d ⟨byteLen a, byteLen a + byteLen m⟩ o c).2.text = a ++ o ++ m ++ c ++ b := by
  obtain ⟨h1, h2⟩ := byteToChar_append2 a m b
  have hs : selected d ⟨byteLen a, byteLen a + byteLen m⟩ = .ok m := by
    rw [selected, if_pos, h, textRange_at]
    refine ⟨by simp, by rw [h]; simp only [byteLen_append]; omega, ?_, ?_⟩
    · simp only [boundary, h, h1]
      rw [List.append_assoc, List.take_left, beq_self_eq_true]
    · simp only [boundary, h, h2]
      rw [show a.length + m.length = (a ++ m).length by simp, List.take_left, byteLen_append, beq_self_eq_true]
  refine ⟨hs, ?_⟩
  rw [wrap, hs]
  have := replace_at d a m b (o ++ m ++ c) h
  exact ⟨this.1, this.2.trans (by simp)⟩

example : (wrap (doc "Hello Wörld!") ⟨6, 12⟩ "{\\b1}".toList "{\\b0}".toList).2.text = "Hello {\\b1}Wörld{\\b0}!".toList := by decide

/-- **C131.** Indenting a selection puts the spaces in front of each line from the one with the first place to the one with the last, and
every other line stays. -/
theorem C131_indent (d : Doc) (r : Range) (n i j : Nat) (hr : r.start ≤ r.fin)
    (hi : HasByte (ropeLines d.text) r.start i) (hj : HasByte (ropeLines d.text) r.fin j) :
    (indent d r n).1 = .ok () ∧ ∃ ls, Changed (Indented n) (ropeLines d.text) i j ls ∧ (indent d r n).2.text = ls.flatten := by
  have hij := has_mono hi hj hr
  have hs := starts_range (ropeLines d.text) i (j + 1 - i) (by have := hj.1; omega)
  have hd := split_at (ropeLines d.text) i j hij
  rw [(ropeLines_spec d.text).1] at hd
  rw [indent, chosen_has d r i j hi hj]
  simp only
  rw [List.map_reverse, hs]
  have := each_indent (List.replicate n ' ') (((ropeLines d.text).drop i).take (j + 1 - i)).reverse d ((ropeLines d.text).take i).flatten
    ((ropeLines d.text).drop (j + 1)).flatten (by rw [List.reverse_reverse]; exact hd)
  rw [List.reverse_reverse] at this
  refine ⟨this.1, _, changed_map (Indented n) (List.replicate n ' ' ++ ·) (fun _ => rfl) _ i j hij hj.1, this.2.trans ?_⟩
  simp only [List.flatten_append]

/-- **C131.** Unindenting takes from each of those lines its leading spaces, at most the given number, and every other line stays. -/
theorem C131_unindent (d : Doc) (r : Range) (n i j : Nat) (hr : r.start ≤ r.fin)
    (hi : HasByte (ropeLines d.text) r.start i) (hj : HasByte (ropeLines d.text) r.fin j) :
    (unindent d r n).1 = .ok () ∧ ∃ ls, Changed (Unindented n) (ropeLines d.text) i j ls ∧ (unindent d r n).2.text = ls.flatten := by
  have hij := has_mono hi hj hr
  have hs := removals_range (ropeLines d.text) n i (j + 1 - i) (by have := hj.1; omega)
  have hd := split_at (ropeLines d.text) i j hij
  rw [(ropeLines_spec d.text).1] at hd
  rw [unindent, chosen_has d r i j hi hj]
  simp only
  rw [List.filterMap_reverse, hs]
  have := each_unindent n (((ropeLines d.text).drop i).take (j + 1 - i)).reverse d ((ropeLines d.text).take i).flatten
    ((ropeLines d.text).drop (j + 1)).flatten (by rw [List.reverse_reverse]; exact hd)
  rw [List.reverse_reverse] at this
  refine ⟨this.1, _, changed_map (Unindented n) (fun l => l.drop (leading n l)) (leading_unindented n) _ i j hij hj.1, this.2.trans ?_⟩
  simp only [List.flatten_append]

example : HasByte (ropeLines (doc "a\n  b\n c\nd").text) 3 1 ∧ HasByte (ropeLines (doc "a\n  b\n c\nd").text) 7 2 ∧
    (indent (doc "a\n  b\n c\nd") ⟨3, 7⟩ 2).2.text = "a\n    b\n   c\nd".toList ∧
    (unindent (doc "a\n  b\n c\nd") ⟨3, 7⟩ 2).2.text = "a\nb\nc\nd".toList := by
  refine ⟨⟨by decide, by decide, .inl (by decide)⟩, ⟨by decide, by decide, .inl (by decide)⟩, by decide, by decide⟩

/-- **C131.** Where the code departs from it: a selection that ends beyond the text makes reading, wrapping, indenting and unindenting panic
instead of returning an error, and so does replacing up to the end of the line from a position beyond the text, while `delete` on the same
selection returns an error. -/
theorem C131_beyond_violated (d : Doc) (r : Range) (o c t : Str) (n : Nat) (h : byteLen d.text < r.fin) :
    selected d r = .panic ∧ wrap d r o c = (.panic, d) ∧ indent d r n = (.panic, d) ∧ unindent d r n = (.panic, d) ∧
      replaceToLineEnd d r.fin t = (.panic, d) ∧ toLineColumn d r.fin = .panic ∧ d.delete r = (.err, d) := by
  have hs : selected d r = .panic := by rw [selected, if_neg (by omega)]
  have hc : chosen d r = none := by rw [chosen, if_pos (.inr h)]
  refine ⟨hs, by rw [wrap, hs], by rw [indent, hc], by rw [unindent, hc], by rw [replaceToLineEnd, if_pos h], ?_, ?_⟩
  · rw [toLineColumn, toLineCol, if_pos (by rw [(ropeLines_spec d.text).1]; exact h)]
  · simp [Doc.delete, textRange, h]

example : byteLen (doc "né").text < (⟨0, 4⟩ : Range).fin := by decide

/-- **C131.** A selection that begins or ends within a character cannot be read or wrapped: the call panics. -/
theorem C131_within_violated :
    selected (doc "né") ⟨0, 2⟩ = .panic ∧ (wrap (doc "né") ⟨0, 2⟩ ['('] [')']).1 = .panic := by decide

/-- **C131.** A position is reported by the line and column that it has. -/
theorem C131_line_column (d : Doc) (a : Str) (line col : Nat) (h : At (ropeLines d.text) a line col) :
    toLineColumn d (byteLen a) = .ok (line, col) := by
  rw [toLineColumn, (conv_at h).1]

example : toLineColumn (doc "a\nbé!") 5 = .ok (2, 3) := by decide

/-- **C131.** The place of a line is after all the lines before it; line 0 stands for line 1; beyond the last line there is none.  The
end is after all the text. -/
theorem C131_at_line (d : Doc) :
    (∀ line, line - 1 < (ropeLines d.text).length → atLine d line = .ok (byteLen ((ropeLines d.text).take (line - 1)).flatten)) ∧
    (∀ line, (ropeLines d.text).length ≤ line - 1 → atLine d line = .err) ∧ atLine d 0 = .ok 0 ∧ atEnd d = byteLen d.text := by
  refine ⟨fun line h => by simp [atLine, lineToByte]; omega, fun line h => by simp [atLine]; omega, ?_, rfl⟩
  have := (ropeLines_spec d.text).2.1
  have : 0 < (ropeLines d.text).length := List.length_pos_iff.2 this
  simp [atLine, lineToByte]
  omega

example : atLine (doc "a\nbé!") 2 = .ok 2 ∧ atLine (doc "a\nbé!") 3 = .err := by decide

/-- **C131.** Where the code departs from what a user of `undo` expects: undoing an insertion at a position reports success and leaves the
inserted text, because the insertion is recorded as the replacement of an empty range; undoing an indentation of two lines likewise leaves
both. -/
theorem C131_undo_violated :
    (insertText (doc "ab") 1 "X".toList).2.undo.1 = .ok () ∧ (insertText (doc "ab") 1 "X".toList).2.undo.2.text = "aXb".toList ∧
      (indent (doc "a\nb") ⟨0, 3⟩ 2).2.undo.1 = .ok () ∧ (indent (doc "a\nb") ⟨0, 3⟩ 2).2.undo.2.text = "  a\n  b".toList := by decide

end Verif.Props.Cursor
