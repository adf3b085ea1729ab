import Verif.Model.Utf8
import Verif.Model.Encoding
import Verif.Spec.Cleanup
import Verif.Lemmas.InfoCmd
import Verif.Lemmas.StrX
import Verif.Props.Tokenizer
/-!
# C141 — cleaning up texts
-/
namespace Verif.Props.Cleanup
open Verif Verif.Utf8 Verif.Spec.Cleanup
open Verif.Spec.EventCmd (White)
open Verif.Spec.InfoCmd (Stripped)
open Verif.Spec.Script (unlines)

theorem odd_iff (c : Char) : (isWs c && c != '\n' && c != '\t') = true ↔ Odd c := by
  unfold Odd
  rw [Bool.and_eq_true, Bool.and_eq_true, bne_iff_ne, bne_iff_ne, and_assoc]
  exact and_congr_left' (SrtDoc.white_iff c)

theorem spaced (s : Str) : Spaced s (normalizeWhitespace s false) := by
  unfold normalizeWhitespace
  simp only [Bool.false_eq_true, if_false]
  induction s with
  | nil => exact .nil
  | cons c s ih =>
    rw [List.map_cons]
    by_cases h : (isWs c && c != '\n' && c != '\t') = true
    · rw [if_pos h]
      exact .space ((odd_iff c).1 h) ih
    · rw [if_neg h]
      exact .same (fun hc => h ((odd_iff c).2 hc)) ih

theorem collapse_true (n : Nat) (s : Str) : collapseSpaces true (List.replicate n ' ' ++ s) = collapseSpaces true s := by
  induction n with
  | zero => rfl
  | succ n ih => rw [List.replicate_succ, List.cons_append, collapseSpaces, if_pos rfl, if_pos rfl, ih]

theorem collapse_head {s : Str} (h : s.head? ≠ some ' ') (b : Bool) : collapseSpaces b s = collapseSpaces false s := by
  cases s with
  | nil => simp [collapseSpaces]
  | cons c s =>
    have hc : c ≠ ' ' := fun e => h (by rw [e]; rfl)
    rw [collapseSpaces, collapseSpaces, if_neg hc, if_neg hc]

theorem stretch (s : Str) : ∃ n t, s = List.replicate n ' ' ++ t ∧ t.head? ≠ some ' ' := by
  induction s with
  | nil => exact ⟨0, [], rfl, nofun⟩
  | cons c s ih =>
    by_cases h : c = ' '
    · obtain ⟨n, t, e, ht⟩ := ih
      exact ⟨n + 1, t, by rw [h, e, List.replicate_succ]; rfl, ht⟩
    · exact ⟨0, c :: s, rfl, by simp [h]⟩

theorem squeezed : ∀ (n : Nat) (s : Str), s.length ≤ n → Squeezed s (collapseSpaces false s)
  | _, [], _ => .nil
  | n + 1, c :: s, hn => by
    by_cases h : c = ' '
    · obtain ⟨k, t, e, ht⟩ := stretch s
      subst h
      rw [e, collapseSpaces, if_pos rfl]
      simp only [Bool.false_eq_true, if_false]
      rw [collapse_true, collapse_head ht]
      have : Squeezed t (collapseSpaces false t) := squeezed n t (by
        rw [e] at hn
        simp only [List.length_cons, List.length_append] at hn
        omega)
      rw [← List.cons_append, ← List.replicate_succ]
      exact .stretch ht this
    · rw [collapseSpaces, if_neg h]
      exact .same h (squeezed n s (by simp at hn; omega))

theorem odd_space : Odd ' ' := ⟨.inr (.inl rfl), by decide, by decide⟩

theorem spaced_keeps {s t : Str} (h : Spaced s t) : Spaced t t := by
  induction h with
  | nil => exact .nil
  | space _ _ ih => exact .space odd_space ih
  | same h _ ih => exact .same h ih

theorem spaced_unique {s t u : Str} (h : Spaced s t) (h' : Spaced s u) : t = u := by
  induction h generalizing u with
  | nil => cases h'; rfl
  | space ho _ ih =>
    cases h' with
    | space _ h2 => rw [ih h2]
    | same hn _ => exact absurd ho hn
  | same hn _ ih =>
    cases h' with
    | space ho _ => exact absurd ho hn
    | same _ h2 => rw [ih h2]

/-- **C141, white space.** Normalising puts a space for every white space other than line feeds and tabulators, one for one; with
collapsing, furthermore one space for every stretch of spaces.  Nothing else changes. -/
theorem C141_whitespace (s : Str) : Spaced s (normalizeWhitespace s false) ∧
    Squeezed (normalizeWhitespace s false) (normalizeWhitespace s true) :=
  ⟨spaced s, squeezed _ _ (Nat.le_refl _)⟩

theorem squeezed_no_pair {s t : Str} (h : Squeezed s t) : (t.head? = some ' ' → s.head? = some ' ') ∧ ∀ a b, t ≠ a ++ ' ' :: ' ' :: b := by
  induction h with
  | nil => exact ⟨nofun, fun a b h => by simp at h⟩
  | @same c s t hc _ ih =>
    refine ⟨fun h => h, fun a b h => ?_⟩
    cases a with
    | nil => exact hc (List.cons.inj h).1
    | cons x a => exact ih.2 a b (List.cons.inj h).2
  | @stretch n s t hs _ ih =>
    refine ⟨fun _ => rfl, fun a b h => ?_⟩
    cases a with
    | nil =>
      have := (List.cons.inj h).2
      exact hs (ih.1 (by rw [this]; rfl))
    | cons x a => exact ih.2 a b (List.cons.inj h).2

theorem collapse_fixed {s : Str} (h : ∀ a b, s ≠ a ++ ' ' :: ' ' :: b) : collapseSpaces false s = s := by
  induction s with
  | nil => rfl
  | cons c s ih =>
    have h2 := ih (fun a b e => h (c :: a) b (by rw [e]; rfl))
    rw [collapseSpaces]
    by_cases hc : c = ' '
    · have hs : s.head? ≠ some ' ' := by
        intro hh
        cases s with
        | nil => cases hh
        | cons d s =>
          injection hh with hh
          exact h [] s (by rw [hc, hh]; rfl)
      rw [if_pos hc]
      simp only [Bool.false_eq_true, if_false]
      rw [collapse_head hs, h2]
    · rw [if_neg hc, h2]

theorem squeezed_spaced {s t : Str} (h : Squeezed s t) (hs : Spaced s s) : Spaced t t := by
  induction h with
  | nil => exact .nil
  | same hc _ ih =>
    cases hs with
    | space _ _ => exact absurd rfl hc
    | same h2 h3 => exact .same h2 (ih h3)
  | @stretch n s t _ _ ih =>
    refine .space odd_space (ih ?_)
    clear ih
    generalize n + 1 = k at hs
    induction k with
    | zero => exact hs
    | succ k ihk =>
      rw [List.replicate_succ, List.cons_append] at hs
      cases hs with
      | space _ h => exact ihk h
      | same _ h => exact ihk h

/-- **C141, white space.** Doing it twice changes nothing more, and after collapsing no two spaces are next to each other. -/
theorem C141_again (s : Str) (b : Bool) : normalizeWhitespace (normalizeWhitespace s b) b = normalizeWhitespace s b ∧
    ∀ x y, normalizeWhitespace s true ≠ x ++ ' ' :: ' ' :: y := by
  obtain ⟨h1, h2⟩ := C141_whitespace s
  have h3 := (squeezed_no_pair h2).2
  refine ⟨?_, h3⟩
  have key : ∀ t, Spaced t t → normalizeWhitespace t false = t := fun t ht => spaced_unique (spaced t) ht
  cases b with
  | false => exact key _ (spaced_keeps h1)
  | true =>
    have h4 := key _ (squeezed_spaced h2 (spaced_keeps h1))
    have e : ∀ t, normalizeWhitespace t true = collapseSpaces false (normalizeWhitespace t false) := fun t => rfl
    rw [e (normalizeWhitespace s true), h4]
    exact collapse_fixed h3

example : normalizeWhitespace "a   b\t\tc\r\n  d".toList true = "a b\t\tc \n d".toList ∧
    normalizeWhitespace "a   b".toList false = "a   b".toList := by decide

/-- **C141, disagreement.** Tabulators stay as they are, also several in a row: not all white space becomes standard spaces, and
not every stretch of white space is collapsed. -/
theorem C141_tab_violated : normalizeWhitespace "a\t\tb".toList true = "a\t\tb".toList := by decide

/-- **C141, disagreement.** The carriage return of a line end counts as white space, so that each line of a Windows text gets a space
at its end. -/
theorem C141_return_violated : normalizeWhitespace "a\r\nb\r\n".toList true = "a \nb \n".toList := by decide

/-- **C141, control characters.** Exactly the characters that text may not contain are removed, so what is left passes both checks
of contents; and a text that passes them stays as it is. -/
theorem C141_control (s : Str) : Purged s (removeControlChars s) ∧ Encoding.validText (removeControlChars s) = true ∧
    Encoding.contentError 0 (removeControlChars s) = none ∧ (Encoding.validText s = true → removeControlChars s = s) := by
  have hk : ∀ c, (!isControl c || c == '\n' || c == '\t' || c == '\r') = true ↔ Spec.Encoding.Allowed c := by
    intro c
    unfold Spec.Encoding.Allowed Spec.Encoding.Control isControl
    simp only [Bool.or_eq_true, Bool.not_eq_true', Bool.or_eq_false_iff, decide_eq_false_iff_not, Bool.and_eq_false_iff, beq_iff_eq]
    constructor
    · rintro (((⟨h1, h2⟩ | h) | h) | h)
      · right; right; right; omega
      · exact .inr (.inl h)
      · exact .inl h
      · exact .inr (.inr (.inl h))
    · rintro (h | h | h | h)
      · exact .inl (.inr h)
      · exact .inl (.inl (.inr h))
      · exact .inr h
      · left; left; left; omega
  have ha : ∀ c ∈ removeControlChars s, Spec.Encoding.Allowed c := fun c hc => (hk c).1 (List.mem_filter.1 hc).2
  refine ⟨?_, (C94_contents _).1.2 ha, (C94_contents _).2.1.2 ha, fun h => ?_⟩
  · clear ha
    unfold removeControlChars
    induction s with
    | nil => exact .nil
    | cons c s ih =>
      rw [List.filter_cons]
      by_cases h : (!isControl c || c == '\n' || c == '\t' || c == '\r') = true
      · rw [if_pos h]; exact .keep ((hk c).1 h) ih
      · rw [if_neg h]; exact .drop (fun hc => h ((hk c).2 hc)) ih
  · unfold removeControlChars
    rw [List.filter_eq_self]
    exact fun c hc => (hk c).2 ((C94_contents s).1.1 h c hc)

example : removeControlChars "a\x00b\r\n\x9fc\t".toList = "ab\r\nc\t".toList := by decide

/-! ## Lines -/

theorem stripped_cr {l : Str} : trim (stripCr l) = trim l := by
  unfold stripCr
  split
  · rename_i h
    have hl : l = l.dropLast ++ ['\r'] := by
      have hne : l ≠ [] := by rintro rfl; cases h
      rw [List.getLast?_eq_some_getLast hne] at h
      injection h with h
      rw [← h, List.dropLast_concat_getLast]
    conv => rhs; rw [hl]
    exact (Handlers.trim_right (fun c hc => by rw [List.mem_singleton.1 hc]; unfold White; decide)).symm
  · rfl

theorem joined (ls : List Str) : joinStr ['\n'] ls = unlines ls := by
  induction ls with
  | nil => rfl
  | cons l ls ih =>
    cases ls with
    | nil => rfl
    | cons m ls => rw [joinStr, unlines, ih, List.append_assoc]; rfl; nofun

theorem lines_unlines : ∀ {ls : List Str}, (∀ l ∈ ls, '\n' ∉ l) → ls.getLast? ≠ some [] → (lines (unlines ls)).map trim = ls.map trim
  | [], _, _ => rfl
  | [l], h, hl => by
    have h1 : '\n' ∉ l := h l (by simp)
    have h2 : l ≠ [] := fun e => hl (by rw [e]; rfl)
    rw [unlines, lines_last h1 h2]
  | l :: m :: ls, h, hl => by
    have h1 : '\n' ∉ l := h l (by simp)
    have i1 := lines_unlines (ls := m :: ls) (fun k hk => h k (by simp [hk])) (by rwa [List.getLast?_cons_cons] at hl)
    rw [unlines, lines_append l h1, List.map_cons, i1, stripped_cr]
    rfl

theorem lines_ended : ∀ {ls : List Str}, (∀ l ∈ ls, '\n' ∉ l) → ls ≠ [] → (lines (unlines ls ++ ['\n'])).map trim = ls.map trim
  | [l], h, _ => by
    rw [unlines, lines_append l (h l (by simp))]
    simp [stripped_cr]
  | l :: m :: ls, h, _ => by
    have i2 := lines_ended (ls := m :: ls) (fun k hk => h k (by simp [hk])) (by simp)
    rw [unlines, List.append_assoc, List.cons_append, lines_append l (h l (by simp)), List.map_cons, i2, stripped_cr]
    rfl

theorem stripped_lines (ls : List Str) : Lines ls (ls.map trim) := by
  induction ls with
  | nil => exact .nil
  | cons l ls ih => exact .cons (InfoCmd.stripped_trim l) ih

/-- **C141, lines.** Trimming takes the white space off both ends of every line, and keeps the lines: the text of some lines, the last
of them not empty, becomes the text of the trimmed lines — and so does the text of some lines, the last of them ended.  Partial: that
last line end is lost (see `C141_end_violated`). -/
theorem C141_lines_partial (ls : List Str) (h : ∀ l ∈ ls, '\n' ∉ l) (hne : ls ≠ []) :
    ∃ bs, Lines ls bs ∧ (ls.getLast? ≠ some [] → trimLines (unlines ls) = unlines bs) ∧ trimLines (unlines ls ++ ['\n']) = unlines bs := by
  refine ⟨ls.map trim, stripped_lines ls, fun hl => ?_, ?_⟩
  · unfold trimLines
    rw [lines_unlines h hl, joined]
  · unfold trimLines
    rw [lines_ended h hne, joined]

example : trimLines (unlines ["  a b\r".toList, "\t".toList, "c ".toList]) = "a b\n\nc".toList := by decide

/-- **C141, disagreement.** The line end after the last line is dropped, and with it an empty last line. -/
theorem C141_end_violated : trimLines "a\n".toList = "a".toList ∧ trimLines "a\n\n".toList = "a\n".toList := by decide

end Verif.Props.Cleanup
