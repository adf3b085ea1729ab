import Verif.Model.Cursor
import Verif.Spec.Cursor
import Verif.Lemmas.Doc
import Verif.Lemmas.LineCol
namespace Verif.Cursor
open Verif Verif.Pos Verif.Doc Verif.LineCol Verif.Spec Verif.Spec.Cursor

theorem replace_at (d : Doc) (a m b t : Str) (h : d.text = a ++ m ++ b) :
    (d.replace ⟨byteLen a, byteLen a + byteLen m⟩ t).1 = .ok () ∧ (d.replace ⟨byteLen a, byteLen a + byteLen m⟩ t).2.text = a ++ t ++ b := by
  simp only [Doc.replace, h, textRange_at, replaceRaw_at, Doc.record, and_self]

theorem delete_at (d : Doc) (a m b : Str) (h : d.text = a ++ m ++ b) :
    (d.delete ⟨byteLen a, byteLen a + byteLen m⟩).1 = .ok () ∧ (d.delete ⟨byteLen a, byteLen a + byteLen m⟩).2.text = a ++ b := by
  simp only [Doc.delete, h, textRange_at, deleteRaw_at, Doc.record, and_self]

theorem empty_at (d : Doc) (a b t : Str) (h : d.text = a ++ b) :
    (d.replace (Range.empty (byteLen a)) t).1 = .ok () ∧ (d.replace (Range.empty (byteLen a)) t).2.text = a ++ t ++ b := by
  have := replace_at d a [] b t (by simp [h])
  simpa [Range.empty] using this

/-- An offset within a character counts as its beginning. -/
theorem byteToChar_inside (p : Str) (c : Char) (r : Str) (k : Nat) (hk : k < c.utf8Size) :
    byteToChar (p ++ c :: r) (byteLen p + k) = p.length := by
  induction p with
  | nil => simp only [List.nil_append, byteLen_nil, Nat.zero_add, byteToChar]; rw [if_neg (by omega)]; rfl
  | cons x xs ih =>
    simp only [List.cons_append, byteToChar, byteLen_cons]
    rw [if_pos (by omega), show x.utf8Size + byteLen xs + k - x.utf8Size = byteLen xs + k by omega, ih]
    rfl

theorem replace_inside (d : Doc) (a m b t : Str) (c : Char) (k : Nat) (hk : k < c.utf8Size) (h : d.text = a ++ m ++ c :: b) :
    (d.replace ⟨byteLen a, byteLen a + byteLen m + k⟩ t).1 = .ok () ∧
      (d.replace ⟨byteLen a, byteLen a + byteLen m + k⟩ t).2.text = a ++ t ++ c :: b := by
  have h1 : byteToChar d.text (byteLen a) = a.length := by rw [h, List.append_assoc]; exact byteToChar_append _ _
  have h2 : byteToChar d.text (byteLen a + byteLen m + k) = a.length + m.length := by
    rw [h, ← byteLen_append, byteToChar_inside _ _ _ _ hk, List.length_append]
  have h3 : ¬ byteLen a + byteLen m + k > byteLen d.text := by
    rw [h]; simp only [byteLen_append, byteLen_cons]; omega
  have h4 : textRange d.text ⟨byteLen a, byteLen a + byteLen m + k⟩ = .ok m := by
    unfold textRange
    simp only [h1, h2]
    rw [if_neg h3, if_pos (by omega), h]
    simp
  have h5 : deleteRaw d.text ⟨byteLen a, byteLen a + byteLen m + k⟩ = (.ok (), a ++ c :: b) := by
    unfold deleteRaw
    simp only [h1, h2]
    rw [if_neg h3, if_pos (by omega), h]
    rw [List.append_assoc, List.take_left', ← List.append_assoc, show a.length + m.length = (a ++ m).length by simp, List.drop_left]
    rfl
  simp only [Doc.replace, h4, replaceRaw, h5, insertRaw_at, Doc.record, and_self]

/-! ## Lines -/

theorem byteToLine_has (ls : List Str) (pos i : Nat) (h : HasByte ls pos i) : byteToLine ls pos = i := by
  induction ls generalizing pos i with
  | nil => exact absurd h.1 (by simp)
  | cons l0 rest ih =>
    obtain ⟨hi, h1, h2⟩ := h
    cases rest with
    | nil =>
      have : i = 0 := by simp at hi; exact hi
      subst this; rfl
    | cons l1 rest =>
      cases i with
      | zero =>
        rw [byteToLine, if_pos]
        rcases h2 with h2 | h2
        · simpa using h2
        · simp at h2
      | succ i =>
        simp only [List.take_succ_cons, List.flatten_cons, byteLen_append] at h1 h2
        rw [byteToLine, if_neg (by omega), ih (pos - byteLen l0) i]
        refine ⟨by simpa using hi, ?_, ?_⟩
        · omega
        · rcases h2 with h2 | ⟨h2, h3⟩
          · left; simp only [List.take_succ_cons, List.flatten_cons, byteLen_append]; omega
          · right; refine ⟨by simpa using h2, ?_⟩
            simp only [List.flatten_cons, byteLen_append] at h3 ⊢; omega

theorem has_le {ls : List Str} {pos i : Nat} (h : HasByte ls pos i) : pos ≤ byteLen ls.flatten := by
  obtain ⟨_, _, h | ⟨_, h⟩⟩ := h
  · have : ls.flatten = (ls.take (i + 1)).flatten ++ (ls.drop (i + 1)).flatten := by
      rw [← List.flatten_append, List.take_append_drop]
    rw [this, byteLen_append]; omega
  · omega

/-- A later byte is on the same line or a later one. -/
theorem has_mono {ls : List Str} {p q i j : Nat} (hi : HasByte ls p i) (hj : HasByte ls q j) (h : p ≤ q) : i ≤ j := by
  refine Nat.le_of_not_lt fun hlt => ?_
  obtain ⟨h1, h2, _⟩ := hi
  obtain ⟨_, _, h3⟩ := hj
  rcases h3 with h3 | ⟨h3, _⟩
  · have : ls.take i = ls.take (j + 1) ++ (ls.drop (j + 1)).take (i - (j + 1)) := by
      have e := List.take_add (l := ls) (i := j + 1) (j := i - (j + 1))
      rw [show j + 1 + (i - (j + 1)) = i by omega] at e
      exact e
    rw [this, List.flatten_append, byteLen_append] at h2
    omega
  · omega

theorem has_start (pre : List Str) (x y : Str) (post : List Str) (h : y ≠ [] ∨ post = []) :
    HasByte (pre ++ (x ++ y) :: post) (byteLen (pre.flatten ++ x)) pre.length := by
  refine ⟨by simp, by simp [byteLen_append], ?_⟩
  rw [show (pre ++ (x ++ y) :: post).take (pre.length + 1) = pre ++ [x ++ y] by
    rw [List.take_append, List.take_of_length_le (by omega), Nat.add_sub_cancel_left]; rfl]
  simp only [List.flatten_append, List.flatten_cons, List.flatten_nil, byteLen_append, byteLen_nil]
  by_cases hy : y = []
  · right
    subst hy
    rcases h with h | h
    · exact absurd rfl h
    · subst h; simp
  · left; have := LineCol.byteLen_pos hy; omega

/-- The starts of consecutive lines. -/
def starts (b : Nat) : List Str → List Nat
  | [] => []
  | l :: ls => b :: starts (b + byteLen l) ls

theorem starts_snoc (b : Nat) (xs : List Str) (m : Str) : starts b (xs ++ [m]) = starts b xs ++ [b + byteLen xs.flatten] := by
  induction xs generalizing b with
  | nil => simp [starts]
  | cons x xs ih => simp only [List.cons_append, starts, ih, List.flatten_cons, byteLen_append, Nat.add_assoc]

theorem starts_range (ls : List Str) (i k : Nat) (h : i + k ≤ ls.length) :
    (List.range' i k).map (lineToByte ls) = starts (lineToByte ls i) ((ls.drop i).take k) := by
  induction k generalizing i with
  | zero => simp [starts]
  | succ k ih =>
    rw [List.range'_succ, List.map_cons, List.drop_eq_getElem_cons (by omega), List.take_succ_cons, starts, ih (i + 1) (by omega)]
    congr 2
    unfold lineToByte
    rw [List.take_succ_eq_append_getElem (by omega)]
    simp only [List.flatten_append, List.flatten_cons, List.flatten_nil, List.append_nil, byteLen_append]

theorem each_indent (sp : Str) (N : List Str) : ∀ (d : Doc) (a b : Str), d.text = a ++ N.reverse.flatten ++ b →
    (each (fun d p => d.replace (Range.empty p) sp) (starts (byteLen a) N.reverse).reverse d).1 = .ok () ∧
      (each (fun d p => d.replace (Range.empty p) sp) (starts (byteLen a) N.reverse).reverse d).2.text =
        a ++ (N.reverse.map (sp ++ ·)).flatten ++ b := by
  induction N with
  | nil => intro d a b h; simpa [starts, each] using h
  | cons m N ih =>
    intro d a b h
    rw [List.reverse_cons, starts_snoc, List.reverse_append, List.reverse_singleton, List.singleton_append, each]
    have h' : d.text = (a ++ N.reverse.flatten) ++ (m ++ b) := by
      rw [h, List.reverse_cons, List.flatten_append]; simp
    have h1 := empty_at d (a ++ N.reverse.flatten) (m ++ b) sp h'
    rw [byteLen_append] at h1
    generalize d.replace (Range.empty (byteLen a + byteLen N.reverse.flatten)) sp = q at h1
    obtain ⟨o, d'⟩ := q
    obtain ⟨ho, ht⟩ := h1
    simp only at ho ht
    subst ho
    have h2 := ih d' a (sp ++ m ++ b) (by rw [ht]; simp)
    refine ⟨h2.1, ?_⟩
    show (each _ _ d').2.text = _
    rw [h2.2, List.map_append, List.flatten_append]
    simp

theorem leading_spec (n : Nat) (l : Str) : l.take (leading n l) = List.replicate (leading n l) ' ' := by
  unfold leading
  induction l generalizing n with
  | nil => simp
  | cons c l ih =>
    cases n with
    | zero => simp
    | succ n =>
      by_cases hc : c = ' '
      · subst hc
        simp only [List.take_succ_cons, List.takeWhile_cons, beq_self_eq_true, if_true, List.length_cons, List.replicate_succ]
        rw [ih]
      · simp [List.takeWhile_cons, hc]

theorem leading_le (n : Nat) (l : Str) : leading n l ≤ n := by
  unfold leading
  have := (List.takeWhile_sublist (p := fun c : Char => c == ' ') (l := l.take n)).length_le
  simp only [List.length_take] at this
  omega

theorem leading_max (n : Nat) (l : Str) : leading n l = n ∨ (l.drop (leading n l)).head? ≠ some ' ' := by
  unfold leading
  induction l generalizing n with
  | nil => right; simp
  | cons c l ih =>
    cases n with
    | zero => left; simp
    | succ n =>
      by_cases hc : c = ' '
      · subst hc
        simp only [List.take_succ_cons, List.takeWhile_cons, beq_self_eq_true, if_true, List.length_cons, List.drop_succ_cons]
        rcases ih n with h | h
        · left; rw [h]
        · right; exact h
      · right; simp [List.takeWhile_cons, hc]

theorem leading_unindented (n : Nat) (l : Str) : Unindented n l (l.drop (leading n l)) := by
  refine ⟨leading n l, leading_le n l, ?_, leading_max n l⟩
  rw [← leading_spec, List.take_append_drop]

theorem byteLen_spaces (n : Nat) : byteLen (List.replicate n ' ') = n := by
  induction n with
  | zero => rfl
  | succ n ih => rw [List.replicate_succ, byteLen_cons, ih, show ' '.utf8Size = 1 by decide]; omega

/-- The removals of consecutive lines. -/
def removals (n b : Nat) : List Str → List (Nat × Nat)
  | [] => []
  | l :: ls => (if 0 < leading n l then [(b, leading n l)] else []) ++ removals n (b + byteLen l) ls

theorem removals_snoc (n b : Nat) (xs : List Str) (m : Str) :
    removals n b (xs ++ [m]) = removals n b xs ++ (if 0 < leading n m then [(b + byteLen xs.flatten, leading n m)] else []) := by
  induction xs generalizing b with
  | nil => simp [removals]
  | cons x xs ih => simp only [List.cons_append, removals, ih, List.flatten_cons, byteLen_append, Nat.add_assoc, List.append_assoc]

theorem removals_range (ls : List Str) (n i k : Nat) (h : i + k ≤ ls.length) :
    (List.range' i k).filterMap (removal ls n) = removals n (lineToByte ls i) ((ls.drop i).take k) := by
  induction k generalizing i with
  | zero => simp [removals]
  | succ k ih =>
    have e : ls.getD i [] = ls[i] := LineCol.getD_of (List.getElem?_eq_getElem (by omega))
    have e2 : lineToByte ls (i + 1) = lineToByte ls i + byteLen ls[i] := by
      unfold lineToByte
      rw [List.take_succ_eq_append_getElem (by omega)]
      simp only [List.flatten_append, List.flatten_cons, List.flatten_nil, List.append_nil, byteLen_append]
    rw [List.range'_succ, List.drop_eq_getElem_cons (by omega), List.take_succ_cons, removals, ← e2, ← ih (i + 1) (by omega), List.filterMap_cons,
      removal, e]
    by_cases hp : 0 < leading n ls[i]
    · rw [if_pos hp, if_pos hp]; rfl
    · rw [if_neg hp, if_neg hp]; rfl

theorem each_unindent (n : Nat) (N : List Str) : ∀ (d : Doc) (a b : Str), d.text = a ++ N.reverse.flatten ++ b →
    (each (fun d (p : Nat × Nat) => d.delete (Range.new p.1 (p.1 + p.2))) (removals n (byteLen a) N.reverse).reverse d).1 = .ok () ∧
      (each (fun d (p : Nat × Nat) => d.delete (Range.new p.1 (p.1 + p.2))) (removals n (byteLen a) N.reverse).reverse d).2.text =
        a ++ (N.reverse.map fun l => l.drop (leading n l)).flatten ++ b := by
  induction N with
  | nil => intro d a b h; simpa [removals, each] using h
  | cons m N ih =>
    intro d a b h
    rw [List.reverse_cons, removals_snoc, List.reverse_append]
    by_cases hp : 0 < leading n m
    · rw [if_pos hp, List.reverse_singleton, List.singleton_append, each]
      have h' : d.text = (a ++ N.reverse.flatten) ++ List.replicate (leading n m) ' ' ++ (m.drop (leading n m) ++ b) := by
        rw [h, List.reverse_cons, List.flatten_append, ← leading_spec]
        simp only [List.flatten_cons, List.flatten_nil, List.append_nil, List.append_assoc, List.append_cancel_left_eq]
        rw [← List.append_assoc, List.take_append_drop]
      have h1 := delete_at d _ _ _ h'
      rw [byteLen_append, byteLen_spaces, ← new_of_le (by omega)] at h1
      simp only
      generalize d.delete (Range.new (byteLen a + byteLen N.reverse.flatten) (byteLen a + byteLen N.reverse.flatten + leading n m)) = q at h1
      obtain ⟨o, d'⟩ := q
      obtain ⟨ho, ht⟩ := h1
      simp only at ho ht
      subst ho
      have h2 := ih d' a (m.drop (leading n m) ++ b) (by rw [ht])
      refine ⟨h2.1, ?_⟩
      show (each _ _ d').2.text = _
      rw [h2.2, List.map_append, List.flatten_append]
      simp
    · rw [if_neg hp, List.reverse_nil, List.nil_append]
      have hz : leading n m = 0 := by omega
      have h2 := ih d a (m ++ b) (by rw [h]; simp)
      refine ⟨h2.1, ?_⟩
      rw [h2.2, List.map_append, List.flatten_append]
      simp [hz]

/-- Changing a stretch of lines one by one. -/
theorem changed_map (R : Str → Str → Prop) (f : Str → Str) (hf : ∀ l, R l (f l)) (ls : List Str) (i j : Nat) (hi : i ≤ j) (hj : j < ls.length) :
    Changed R ls i j (ls.take i ++ ((ls.drop i).take (j + 1 - i)).map f ++ ls.drop (j + 1)) := by
  refine ⟨by simp; omega, ?_⟩
  intro k l hk
  have hlt : k < ls.length := by rw [List.getElem?_eq_some_iff] at hk; exact hk.1
  by_cases h1 : k < i
  · refine ⟨l, ?_, by rw [if_neg (by omega)]⟩
    rw [List.append_assoc, List.getElem?_append_left (by simp; omega), List.getElem?_take_of_lt h1, hk]
  · by_cases h2 : k ≤ j
    · refine ⟨f l, ?_, by rw [if_pos (by omega)]; exact hf l⟩
      rw [List.append_assoc, List.getElem?_append_right (by simp; omega), List.getElem?_append_left (by simp; omega), List.getElem?_map,
        List.getElem?_take_of_lt (by simp; omega), List.getElem?_drop]
      simp only [List.length_take]
      rw [show i + (k - min i ls.length) = k by omega, hk]; rfl
    · refine ⟨l, ?_, by rw [if_neg (by omega)]⟩
      rw [List.getElem?_append_right (by simp; omega), List.getElem?_drop]
      simp only [List.length_append, List.length_take, List.length_map, List.length_drop]
      rw [show j + 1 + (k - (min i ls.length + min (j + 1 - i) (ls.length - i))) = k by omega, hk]

theorem split_at (ls : List Str) (i j : Nat) (hi : i ≤ j) : ls.flatten =
    (ls.take i).flatten ++ ((ls.drop i).take (j + 1 - i)).flatten ++ (ls.drop (j + 1)).flatten := by
  rw [← List.flatten_append, ← List.flatten_append, List.append_assoc]
  congr 1
  conv => lhs; rw [← List.take_append_drop i ls, ← List.take_append_drop (j + 1 - i) (ls.drop i), List.drop_drop]
  rw [show i + (j + 1 - i) = j + 1 by omega]

theorem chosen_has (d : Doc) (r : Range) (i j : Nat) (hi : HasByte (ropeLines d.text) r.start i) (hj : HasByte (ropeLines d.text) r.fin j) :
    chosen d r = some (List.range' i (j + 1 - i)).reverse := by
  have e := (ropeLines_spec d.text).1
  have h1 := has_le hi
  have h2 := has_le hj
  rw [e] at h1 h2
  unfold chosen
  rw [if_neg (by omega)]
  simp only [byteToLine_has _ _ _ hi, byteToLine_has _ _ _ hj]

/-! ## The lines of a rope -/

theorem isBreak_iff (c : Char) : isBreak c = true ↔ c ∈ breaks := by
  simp only [isBreak, breaks, List.mem_cons, List.not_mem_nil, or_false, Bool.or_eq_true, beq_iff_eq, or_assoc]

theorem lines_cons_char {c : Char} {l : Str} {ls : List Str} (hc : c ∉ breaks) (h : Lines (l :: ls)) : Lines ((c :: l) :: ls) := by
  cases h with
  | last _ h => exact .last _ (fun x hx => by
      rcases List.mem_cons.1 hx with rfl | hx
      · exact hc
      · exact h x hx)
  | cons _ m ls he hcr hr =>
    obtain ⟨body, stop, rfl, hb, hs⟩ := he
    refine .cons _ m ls ⟨c :: body, stop, rfl, ?_, hs⟩ ?_ hr
    · intro x hx
      rcases List.mem_cons.1 hx with rfl | hx
      · exact hc
      · exact hb x hx
    · intro h
      refine hcr ?_
      have hne : body ++ stop ≠ [] := by
        rcases hs with rfl | ⟨c, _, rfl⟩ <;> simp
      rw [← h, List.getLast?_cons, List.getLast?_eq_some_getLast hne]
      rfl

theorem ropeLines_lines (s : Str) : Lines (ropeLines s) ∧ (∀ l ls, ropeLines s = l :: ls → (l.head? = s.head?)) := by
  induction s with
  | nil => exact ⟨.last _ (by simp), by intro l ls h; simp [ropeLines] at h; rw [h.1]⟩
  | cons c cs ih =>
    obtain ⟨ih, ihh⟩ := ih
    rw [ropeLines]
    cases hr : ropeLines cs with
    | nil => rw [hr] at ih; cases ih
    | cons l ls =>
      rw [hr] at ih
      have hh := ihh l ls hr
      split
      · rename_i h
        obtain ⟨rfl, h⟩ := h
        refine ⟨?_, by intro l' ls' h'; simp at h'; rw [← h'.1]; rfl⟩
        have hl : l.head? = some '\n' := by rw [hh, h]
        cases ih with
        | last _ hb =>
          exfalso
          cases l with
          | nil => simp at hl
          | cons x xs => simp at hl; subst hl; exact hb '\n' (by simp) (by decide)
        | cons _ m ls he hcr hr' =>
          obtain ⟨body, stop, rfl, hb, hs⟩ := he
          cases body with
          | cons x xs => simp at hl; subst hl; exact absurd (by decide) (hb '\n' (by simp))
          | nil =>
            rcases hs with rfl | ⟨x, hx, rfl⟩
            · simp at hl
            · simp at hl; subst hl
              exact .cons _ m ls ⟨[], ['\r', '\n'], rfl, by simp, .inl rfl⟩ (by simp) hr'
      · rename_i h
        split
        · rename_i hb
          refine ⟨.cons _ _ _ ⟨[], [c], rfl, by simp, .inr ⟨c, (isBreak_iff c).1 hb, rfl⟩⟩ ?_ ih, by intro l' ls' h'; simp at h'; rw [← h'.1]; rfl⟩
          intro hc hm
          simp at hc
          exact h ⟨hc, by rw [← hh]; exact hm⟩
        · rename_i hb
          refine ⟨lines_cons_char (fun hc => hb ((isBreak_iff c).2 hc)) ih, by intro l' ls' h'; simp at h'; rw [← h'.1]; rfl⟩

end Verif.Cursor
