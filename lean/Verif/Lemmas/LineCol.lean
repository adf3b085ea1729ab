import Verif.Model.LineCol
import Verif.Spec.LineCol
import Verif.Lemmas.Bytes
namespace Verif.LineCol
open Verif Verif.Spec

theorem countCols_prefix (a b : Str) : countCols (a ++ b) (byteLen a) = a.length := by
  induction a with
  | nil => cases b <;> rfl
  | cons c cs ih =>
    have hp := utf8Size_pos c
    obtain ⟨n, hn⟩ : ∃ n, byteLen (c :: cs) = n + 1 := ⟨byteLen (c :: cs) - 1, by
      rw [byteLen_cons]; omega⟩
    rw [List.cons_append, hn, countCols, ← hn, byteLen_cons, Nat.add_sub_cancel_left, ih]
    rfl

theorem byteLen_pos {s : Str} (h : s ≠ []) : 0 < byteLen s := by
  cases s with
  | nil => exact absurd rfl h
  | cons c cs => have := utf8Size_pos c; rw [byteLen_cons]; omega

/-- Locating the line of a prefix. -/
theorem byteToLine_prefix (ls : List Str) (i : Nat) (l p q : Str) (hl : ls[i]? = some l)
    (hs : l = p ++ q) (hq : q ≠ [] ∨ i + 1 = ls.length) :
    byteToLine ls (byteLen (ls.take i).flatten + byteLen p) = i := by
  induction ls generalizing i with
  | nil => simp at hl
  | cons l0 rest ih =>
    cases rest with
    | nil =>
      cases i with
      | zero => rfl
      | succ i => simp at hl
    | cons l1 rest =>
      cases i with
      | zero =>
        simp only [List.getElem?_cons_zero, Option.some.injEq] at hl
        subst hl
        have hq' : q ≠ [] := by
          rcases hq with h | h
          · exact h
          · simp at h
        have := byteLen_pos hq'
        simp only [byteToLine, List.take_zero, List.flatten_nil, byteLen_nil, Nat.zero_add]
        rw [if_pos (by rw [hs, byteLen_append]; omega)]
      | succ i =>
        simp only [List.getElem?_cons_succ] at hl
        simp only [byteToLine, List.take_succ_cons, List.flatten_cons, byteLen_append]
        rw [if_neg (by omega)]
        have := ih i hl (by
          rcases hq with h | h
          · exact Or.inl h
          · right; simpa using h)
        rw [show byteLen l0 + byteLen (List.take i (l1 :: rest)).flatten + byteLen p - byteLen l0 =
          byteLen (List.take i (l1 :: rest)).flatten + byteLen p by omega, this]

/-- Every prefix of the text is at some line and column. -/
theorem exists_at (ls : List Str) (hne : ls ≠ []) (a b : Str) (h : ls.flatten = a ++ b) :
    ∃ line col, At ls a line col := by
  induction ls generalizing a with
  | nil => exact absurd rfl hne
  | cons l rest ih =>
    by_cases hlt : a.length < l.length
    · refine ⟨1, a.length + 1, l, by omega, by omega, rfl, ?_, by simp; omega⟩
      simp only [List.flatten_cons] at h
      have := congrArg (List.take a.length) h
      rw [List.take_append_of_le_length (by omega)] at this
      simp at this
      simp [this]
    · cases rest with
      | nil =>
        simp only [List.flatten_cons, List.flatten_nil, List.append_nil] at h
        have hl := congrArg List.length h
        simp only [List.length_append] at hl
        have hb : b = [] := List.eq_nil_of_length_eq_zero (by omega)
        subst hb
        refine ⟨1, l.length + 1, l, by omega, by omega, rfl, ?_, by simp⟩
        simp at h; simp [h]
      | cons l1 rest =>
        simp only [List.flatten_cons] at h
        have h1 := congrArg (List.take l.length) h
        rw [List.take_left, List.take_append_of_le_length (by omega)] at h1
        have h2 := congrArg (List.drop l.length) h
        rw [List.drop_left, List.drop_append_of_le_length (by omega)] at h2
        obtain ⟨line, col, l', h3, h4, h5, h6, h7⟩ := ih (by simp) (a.drop l.length)
          (by simpa using h2)
        refine ⟨line + 1, col, l', by omega, h4, ?_, ?_, ?_⟩
        · rw [show line + 1 - 1 = (line - 1) + 1 by omega, List.getElem?_cons_succ]; exact h5
        · rw [show line + 1 - 1 = (line - 1) + 1 by omega, List.take_succ_cons, List.flatten_cons,
            List.append_assoc, ← h6]
          have := List.take_append_drop l.length a
          rw [← h1] at this
          exact this.symm
        · rcases h7 with h7 | h7
          · exact Or.inl h7
          · right; simp at h7 ⊢; omega

theorem getD_of {ls : List Str} {i : Nat} {l : Str} (h : ls[i]? = some l) : ls.getD i [] = l := by
  rw [List.getD_eq_getElem?_getD, h]; rfl

/-- Both conversions agree with the specification. -/
theorem conv_at {ls : List Str} {a : Str} {line col : Nat} (h : At ls a line col) :
    toLineCol ls (byteLen a) = some (line, col) ∧ build ls line col = some (byteLen a) := by
  obtain ⟨l, h1, h2, h3, h4, h5⟩ := h
  have hlt : line - 1 < ls.length := by
    rw [List.getElem?_eq_some_iff] at h3; exact h3.1
  have hp : l = l.take (col - 1) ++ l.drop (col - 1) := (List.take_append_drop _ _).symm
  have hle : col - 1 ≤ l.length := by omega
  have hline := byteToLine_prefix ls (line - 1) l _ _ h3 hp (by
    rcases h5 with h | h
    · left; intro e; have := congrArg List.length e; simp at this; omega
    · right; omega)
  have hbl : byteLen a = byteLen (ls.take (line - 1)).flatten + byteLen (l.take (col - 1)) := by
    rw [h4, byteLen_append]
  constructor
  · unfold toLineCol
    have hpre : ∃ t, ls.flatten = a ++ t := by
      refine ⟨l.drop (col - 1) ++ (ls.drop line).flatten, ?_⟩
      have : ls = ls.take (line - 1) ++ l :: ls.drop line := by
        have e := List.take_append_drop (line - 1) ls
        rw [List.drop_eq_getElem_cons hlt] at e
        have e2 : ls[line - 1] = l := by
          rw [List.getElem?_eq_some_iff] at h3; exact h3.2
        rw [e2, show line - 1 + 1 = line by omega] at e
        exact e.symm
      conv => lhs; rw [this]
      rw [List.flatten_append, List.flatten_cons, h4]
      simp only [List.append_assoc]
      congr 1
      rw [← List.append_assoc, List.take_append_drop]
    obtain ⟨t, ht⟩ := hpre
    rw [if_neg (by rw [ht, byteLen_append]; omega)]
    simp only
    rw [hbl, hline, getD_of h3, lineToByte, Nat.add_sub_cancel_left]
    have := countCols_prefix (l.take (col - 1)) (l.drop (col - 1))
    rw [List.take_append_drop] at this
    rw [this, List.length_take]
    congr 2 <;> omega
  · unfold build
    simp only
    rw [if_neg (by omega), if_neg (by omega), getD_of h3, if_neg (by omega), hbl, lineToByte]

theorem ropeLines_spec (s : Str) : LinesOf (ropeLines s) s := by
  induction s with
  | nil => exact ⟨rfl, by simp [ropeLines], by intro i l h1 h2; simp [ropeLines] at h2⟩
  | cons c cs ih =>
    obtain ⟨h1, h2, h3⟩ := ih
    have join : LinesOf (match ropeLines cs with
      | [] => [[c]]
      | l :: ls => (c :: l) :: ls) (c :: cs) := by
      cases hr : ropeLines cs with
      | nil => exact absurd hr h2
      | cons l ls =>
        rw [hr] at h1 h3
        refine ⟨by simp at h1; simp [h1], by simp, ?_⟩
        intro i m hm hi
        cases i with
        | zero => simp at hm; rw [← hm]; simp
        | succ i => exact h3 (i + 1) m (by simpa using hm) (by simpa using hi)
    rw [ropeLines]
    split
    · exact join
    · split
      · refine ⟨by simp [h1], by simp, ?_⟩
        intro i m hm hi
        cases i with
        | zero => simp at hm; rw [← hm]; simp
        | succ i => exact h3 i m (by simpa using hm) (by simp at hi; omega)
      · exact join

/-- Line and column of the plain walk. -/
theorem plainAux_prefix (a b : Str) (line col : Nat) :
    plainAux (a ++ b) (byteLen a) line col =
      (line + a.count '\n', if '\n' ∈ a then (a.reverse.takeWhile (· ≠ '\n')).length + 1
        else col + a.length) := by
  induction a generalizing line col with
  | nil => cases b <;> simp [plainAux]
  | cons c cs ih =>
    have hp := utf8Size_pos c
    obtain ⟨n, hn⟩ : ∃ n, byteLen (c :: cs) = n + 1 := ⟨byteLen (c :: cs) - 1, by
      rw [byteLen_cons]; omega⟩
    rw [List.cons_append, hn, plainAux, ← hn, byteLen_cons, Nat.add_sub_cancel_left]
    have tw : ∀ (p q : Str), (∃ x ∈ p, x = '\n') →
        (p ++ q).takeWhile (· ≠ '\n') = p.takeWhile (· ≠ '\n') := by
      intro p q
      induction p with
      | nil => simp
      | cons x xs ihx =>
        intro hx
        by_cases hxn : x = '\n'
        · simp [hxn]
        · simp only [List.cons_append, List.takeWhile_cons]
          rw [if_pos (by simpa using hxn), if_pos (by simpa using hxn), ihx]
          obtain ⟨y, hy, rfl⟩ := hx
          refine ⟨_, ?_, rfl⟩
          rcases List.mem_cons.1 hy with h | h
          · exact absurd h.symm hxn
          · exact h
    split
    · next hc =>
      subst hc
      rw [ih]
      congr 1
      · simp; omega
      · simp only [List.mem_cons, true_or, if_true]
        by_cases hm : '\n' ∈ cs
        · rw [if_pos hm, List.reverse_cons, tw _ _ ⟨'\n', by simpa using hm, rfl⟩]
        · rw [if_neg hm, List.reverse_cons]
          have : (cs.reverse ++ ['\n']).takeWhile (· ≠ '\n') = cs.reverse := by
            have h : ∀ (p : Str), '\n' ∉ p → (p ++ ['\n']).takeWhile (· ≠ '\n') = p := by
              intro p
              induction p with
              | nil => simp
              | cons x xs ihx =>
                intro hx
                simp only [List.mem_cons, not_or] at hx
                simp only [List.cons_append, List.takeWhile_cons]
                rw [if_pos (by simpa using fun e => hx.1 e.symm), ihx hx.2]
            exact h _ (by simpa using hm)
          rw [this]; simp; omega
    · next hc =>
      rw [ih]
      have hc' : ¬ '\n' = c := fun e => hc e.symm
      congr 1
      · rw [List.count_cons_of_ne hc]
      · simp only [List.mem_cons, hc', false_or]
        by_cases hm : '\n' ∈ cs
        · rw [if_pos hm, if_pos hm, List.reverse_cons, tw _ _ ⟨'\n', by simpa using hm, rfl⟩]
        · rw [if_neg hm, if_neg hm]; simp; omega

end Verif.LineCol
