import Verif.Lemmas.LineCol
/-!
# C17 — line/column conversion
-/
namespace Verif.Props
open Verif Verif.LineCol Verif.Spec

/-- **C17.** For any line division and any whole-character position, the reported line and column
are the ones the specification names, and building a position from them gives the position back. -/
theorem C17_position_roundtrip (ls : List Str) (a b : Str) (h : LinesOf ls (a ++ b)) :
    ∃ line col, At ls a line col ∧ toLineCol ls (byteLen a) = some (line, col) ∧
      build ls line col = some (byteLen a) := by
  obtain ⟨line, col, hat⟩ := exists_at ls h.2.1 a b h.1
  exact ⟨line, col, hat, conv_at hat⟩

example : toLineCol (ropeLines "ab\r\ncé\nd".toList) 7 = some (2, 3) ∧
    build (ropeLines "ab\r\ncé\nd".toList) 2 3 = some 7 := by decide

/-- **C17.** Conversely a line and column that exist are reported back for the position built from
them. -/
theorem C17_linecol_roundtrip (ls : List Str) (a : Str) (line col : Nat) (h : At ls a line col) :
    build ls line col = some (byteLen a) ∧ toLineCol ls (byteLen a) = some (line, col) :=
  ⟨(conv_at h).2, (conv_at h).1⟩

example : At (ropeLines "ab\ncé".toList) "ab\nc".toList 2 2 := by
  refine ⟨"cé".toList, ?_⟩; decide

/-- **C17.** The lines of the default rope are a line division, so the two theorems above apply to
every text. -/
theorem C17_rope_lines (s : Str) : LinesOf (ropeLines s) s := ropeLines_spec s

example : ropeLines "a\r\nb\rc\n".toList = ["a\r\n".toList, "b\r".toList, "c\n".toList, []] := by decide

/-- **C17.** Out-of-range requests are refused. -/
theorem C17_out_of_range (ls : List Str) (pos line col : Nat) :
    (pos > byteLen ls.flatten → toLineCol ls pos = none) ∧
    (line = 0 ∨ col = 0 ∨ line > ls.length → build ls line col = none) := by
  constructor
  · intro h; simp [toLineCol, h]
  · intro h
    unfold build
    simp only
    by_cases h1 : line - 1 ≥ ls.length
    · simp [h1]
    · rw [if_neg h1, if_pos (by omega)]

example : build (ropeLines "a\nb".toList) 3 1 = none ∧ build (ropeLines "a\nb".toList) 1 4 = none := by
  decide

/-- **C17.** Without ropes the reported line is one plus the number of newlines before the position
and the column one plus the number of characters since the last newline. -/
theorem C17_plain_line_column (a b : Str) :
    toLineColPlain (a ++ b) (byteLen a) =
      some (1 + a.count '\n', 1 + (a.reverse.takeWhile (· ≠ '\n')).length) := by
  unfold toLineColPlain
  rw [if_neg (by rw [byteLen_append]; omega), plainAux_prefix]
  congr 2
  by_cases hm : '\n' ∈ a
  · rw [if_pos hm]; omega
  · rw [if_neg hm]
    have : a.reverse.takeWhile (· ≠ '\n') = a.reverse := by
      have key : ∀ p : Str, '\n' ∉ p → p.takeWhile (· ≠ '\n') = p := by
        intro p
        induction p with
        | nil => simp
        | cons x xs ih =>
          intro hx
          simp only [List.mem_cons, not_or] at hx
          rw [List.takeWhile_cons, if_pos (by simpa using fun e => hx.1 e.symm), ih hx.2]
      exact key _ (by simpa using hm)
    rw [this]; simp

example : toLineColPlain "ab\ncé\nd".toList 6 = some (2, 3) := by decide

end Verif.Props
