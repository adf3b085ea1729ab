import Verif.Lemmas.Incremental
namespace Verif.Incremental
open Verif
open Verif.Parser
open Verif.Spec.Script
open Verif.Spec.Update (places Ordered)
open Verif.Spec.Incremental

theorem size_append (a b : Str) : size (a ++ b) = size a + size b := byteLen_append a b

theorem size_zero {s : Str} (h : size s = 0) : s = [] := by
  have := length_le_byteLen s
  rw [size_eq] at h
  exact List.length_eq_zero_iff.1 (by omega)

/-- What ends earlier in bytes is a beginning. -/
theorem prefix_of_size {A B C D : Str} (h : A ++ B = C ++ D) (hs : size A ≤ size C) : ∃ t, C = A ++ t ∧ B = t ++ D := by
  rcases List.append_eq_append_iff.1 h with ⟨t, e1, e2⟩ | ⟨t, e1, e2⟩
  · exact ⟨t, e1, e2⟩
  · have : t = [] := by
      apply size_zero
      rw [e1, size_append] at hs
      omega
    subst this
    exact ⟨[], by simpa using e1.symm, by simpa using e2.symm⟩

theorem moved_size {c : TextChange} {p o q t : Str} (h1 : c.start = size p) (h2 : c.stop = size (p ++ o)) :
    moved c (size (p ++ o ++ t)) = size (p ++ c.text ++ t) := by
  unfold moved
  rw [h1, h2]
  simp only [size_append, ← size_eq]
  split <;> omega

/-- A text after the change. -/
theorem text_after {src new : Str} {c : TextChange} (h : Edited src c new) {a b : Nat} {x : Str} (ht : Text src a b x) (hc : c.stop ≤ a) :
    Text new (moved c a) (moved c b) x := by
  obtain ⟨p, o, q, e1, e2, h1, h2⟩ := h
  obtain ⟨p1, q1, e3, rfl, rfl⟩ := ht
  rw [h2] at hc
  obtain ⟨t, e4, e5⟩ := prefix_of_size (A := p ++ o) (B := q) (C := p1) (D := x ++ q1) (by rw [← e1, e3]; simp) hc
  refine ⟨p ++ c.text ++ t, q1, by rw [e2, e5]; simp, ?_, ?_⟩
  · rw [e4, moved_size (q := q) h1 h2]
  · rw [e4, List.append_assoc (p ++ o) t x, moved_size (q := q) h1 h2]
    simp

/-- A text before the change. -/
theorem text_before {src new : Str} {c : TextChange} (h : Edited src c new) {a b : Nat} {x : Str} (ht : Text src a b x) (hc : b ≤ c.start) :
    Text new a b x := by
  obtain ⟨p, o, q, e1, e2, h1, h2⟩ := h
  obtain ⟨p1, q1, e3, rfl, rfl⟩ := ht
  rw [h1] at hc
  obtain ⟨t, e4, e5⟩ := prefix_of_size (A := p1 ++ x) (B := q1) (C := p) (D := o ++ q) (by rw [← e3, e1]; simp) hc
  exact ⟨p1, t ++ c.text ++ q, by rw [e2, e4]; simp, rfl, rfl⟩

theorem adjust_after {a b : Nat} {c : TextChange} (h : c.stop ≤ a) : adjustRange a b c = (moved c a, moved c b) := by
  unfold adjustRange moved
  rw [if_pos h]
  split <;> rfl

theorem adjust_before {a b : Nat} {c : TextChange} (h1 : ¬ c.stop ≤ a) (h : b ≤ c.start) : adjustRange a b c = (a, b) := by
  unfold adjustRange
  rw [if_neg h1, if_pos h]

/-- A text that the change overlaps. -/
theorem text_overlap {src new : Str} {c : TextChange} (h : Edited src c new) {a b : Nat} {x : Str} (ht : Text src a b x)
    (h3 : ¬ c.stop ≤ a) (h4 : ¬ b ≤ c.start) : ∃ x1 x2, Before x a c.start x1 ∧ After x b c.stop x2 ∧
      Text new (adjustRange a b c).1 (adjustRange a b c).2 (x1 ++ c.text ++ x2) := by
  obtain ⟨p, o, q, e1, e2, h1, h2⟩ := h
  obtain ⟨p1, q1, e3, rfl, rfl⟩ := ht
  rw [h2] at h3
  rw [h1] at h4
  have hl : ∃ p' x1, p = p' ++ x1 ∧ size p' = min (size p1) (size p) ∧ Before x (size p1) (size p) x1 := by
    by_cases hle : size p1 ≤ size p
    · obtain ⟨x1, e4, e5⟩ := prefix_of_size (A := p1) (B := x ++ q1) (C := p) (D := o ++ q) (by rw [← List.append_assoc, ← e3, e1]; simp) hle
      have hs : size x1 ≤ size x := by rw [e4, size_append, size_append] at h4; omega
      obtain ⟨r, e6, _⟩ := prefix_of_size (A := x1) (B := o ++ q) (C := x) (D := q1) e5.symm hs
      exact ⟨p1, x1, e4, by omega, .inl ⟨r, e6, by rw [e4, size_append]⟩⟩
    · exact ⟨p, [], by simp, by omega, .inr ⟨rfl, by omega⟩⟩
  have hr : ∃ x2 q', q = x2 ++ q' ∧ After x (size (p1 ++ x)) (size (p ++ o)) x2 ∧
      (adjustRange (size p1) (size (p1 ++ x)) c).2 = size p + size c.text + size x2 := by
    have e0 : (adjustRange (size p1) (size (p1 ++ x)) c).2 = if c.stop ≥ size (p1 ++ x) then c.start + byteLen c.text
        else if byteLen c.text ≥ c.stop - c.start then size (p1 ++ x) + (byteLen c.text - (c.stop - c.start))
        else size (p1 ++ x) - (c.stop - c.start - byteLen c.text) := by
      unfold adjustRange
      rw [if_neg (by rw [h2]; exact h3), if_neg (by rw [h1]; exact h4)]
    rw [e0, h1, h2, ← size_eq]
    by_cases hle : size (p1 ++ x) ≤ size (p ++ o)
    · exact ⟨[], q, by simp, .inr ⟨rfl, hle⟩, by rw [if_pos hle]; simp [size]⟩
    · obtain ⟨x2, e4, e5⟩ := prefix_of_size (A := p ++ o) (B := q) (C := p1 ++ x) (D := q1) (by rw [← e1, e3]) (by omega)
      have hs : size p1 ≤ size (p ++ o) := by omega
      obtain ⟨r, e6, e7⟩ := prefix_of_size (A := p1) (B := x) (C := p ++ o) (D := x2) e4 hs
      refine ⟨x2, q1, e5, .inl ⟨r, e7, by rw [e4, size_append (p ++ o) x2]⟩, ?_⟩
      rw [if_neg hle, e4]
      simp only [size_append]
      split <;> omega
  obtain ⟨p', x1, g1, g2, g3⟩ := hl
  obtain ⟨x2, q', g4, g5, g6⟩ := hr
  rw [h1, h2]
  refine ⟨x1, x2, g3, g5, p', q', by rw [e2, g1, g4]; simp, ?_, ?_⟩
  · rw [g2]
    unfold adjustRange
    rw [if_neg (by rw [h2]; exact h3), if_neg (by rw [h1]; exact h4), h1]
  · rw [g6, g1]
    simp only [size_append]
    omega

/-! ## Lines -/

theorem feeds_cons (ch : Char) (s : Str) : feeds (ch :: s) = (if ch = '\n' then 1 else 0) + feeds s := by
  unfold feeds
  rw [List.filter_cons]
  by_cases h : ch = '\n'
  · simp [h]; omega
  · simp [h]

theorem feeds_append (a b : Str) : feeds (a ++ b) = feeds a + feeds b := by
  unfold feeds
  rw [List.filter_append, List.length_append]

theorem lineFrom_eq {pos : Nat} (p q : Str) : ∀ {line cur : Nat}, cur + size p = pos → lineFrom pos line cur (p ++ q) = line + feeds p := by
  induction p with
  | nil =>
    intro line cur h
    have hc : cur = pos := by simpa [size] using h
    cases q with
    | nil => rfl
    | cons x q =>
      rw [List.nil_append, lineFrom, if_pos (by omega)]
      rfl
  | cons ch p ih =>
    intro line cur h
    have hs : size (ch :: p) = ch.utf8Size + size p := byteLen_cons ch p
    have := utf8Size_pos ch
    rw [List.cons_append, lineFrom, if_neg (by omega), ih (by omega), feeds_cons]
    split <;> omega

theorem rangeFrom_cons (a b line cur sl : Nat) (ch : Char) (s : Str) : rangeFrom a b line cur sl (ch :: s) =
    if cur ≥ b then (if cur ≥ a ∧ sl = 0 then line else sl, line, line)
    else rangeFrom a b (if ch = '\n' then line + 1 else line) (cur + ch.utf8Size) (if cur ≥ a ∧ sl = 0 then line else sl) s := rfl

theorem rangeFrom_skip {a b : Nat} (hab : a ≤ b) (p s : Str) : ∀ {line cur : Nat}, cur + size p = a →
    rangeFrom a b line cur 0 (p ++ s) = rangeFrom a b (line + feeds p) a 0 s := by
  induction p with
  | nil =>
    intro line cur h
    have hc : cur = a := by simpa [size] using h
    rw [hc]; rfl
  | cons ch p ih =>
    intro line cur h
    have hs : size (ch :: p) = ch.utf8Size + size p := byteLen_cons ch p
    have := utf8Size_pos ch
    rw [List.cons_append, rangeFrom_cons, if_neg (show ¬ cur ≥ b by omega), if_neg (show ¬ (cur ≥ a ∧ 0 = 0) by omega), ih (by omega), feeds_cons]
    congr 1
    split <;> omega

theorem rangeFrom_start {a b line cur : Nat} {s : Str} (hs : s ≠ []) (hc : a ≤ cur) (hl : line ≠ 0) :
    rangeFrom a b line cur 0 s = rangeFrom a b line cur line s := by
  cases s with
  | nil => exact absurd rfl hs
  | cons ch s =>
    rw [rangeFrom_cons, rangeFrom_cons, if_pos (⟨hc, rfl⟩ : cur ≥ a ∧ 0 = 0), if_neg (show ¬ (cur ≥ a ∧ line = 0) by omega)]

theorem rangeFrom_rest {a b sl : Nat} (hsl : sl ≠ 0) (x q : Str) : ∀ {line cur : Nat}, line ≠ 0 → cur + size x = b →
    (rangeFrom a b line cur sl (x ++ q)).1 = sl ∧
    (if (rangeFrom a b line cur sl (x ++ q)).2.1 = 0 then (rangeFrom a b line cur sl (x ++ q)).2.2 else (rangeFrom a b line cur sl (x ++ q)).2.1) =
      line + feeds x := by
  induction x with
  | nil =>
    intro line cur hl h
    have hc : cur = b := by simpa [size] using h
    cases q with
    | nil => exact ⟨rfl, rfl⟩
    | cons ch q =>
      rw [List.nil_append, rangeFrom_cons, if_neg (show ¬ (cur ≥ a ∧ sl = 0) by omega), if_pos (show cur ≥ b by omega)]
      exact ⟨rfl, by rw [if_neg hl]; rfl⟩
  | cons ch x ih =>
    intro line cur hl h
    have hs : size (ch :: x) = ch.utf8Size + size x := byteLen_cons ch x
    have := utf8Size_pos ch
    have hl' : (if ch = '\n' then line + 1 else line) ≠ 0 := by split <;> omega
    have hh := ih (line := if ch = '\n' then line + 1 else line) (cur := cur + ch.utf8Size) hl' (by omega)
    rw [List.cons_append, rangeFrom_cons, if_neg (show ¬ (cur ≥ a ∧ sl = 0) by omega), if_neg (show ¬ cur ≥ b by omega)]
    refine ⟨hh.1, ?_⟩
    rw [hh.2, feeds_cons]
    split <;> omega

/-! ## Places of sections that are kept -/

theorem places_moved (c : TextChange) (s : Section) : places (movedSection c s) = (places s).map (movedSpan c) := by
  cases s <;> simp [movedSection, places, Function.comp_def]

/-- A section that is not touched is wholly before or wholly after the change. -/
theorem keep_places {c : TextChange} {s : Section} (ho : Ordered (places s)) (ht : ¬ Touched c s) :
    (places (keep c s) = (places s).map (movedSpan c) ∧ ∀ sp ∈ places s, c.stop ≤ sp.start) ∨
    (places (keep c s) = places s ∧ ∀ sp ∈ places s, sp.stop ≤ c.start) := by
  cases hh : (places s).head? with
  | none =>
    have hn : places s = [] := List.head?_eq_none_iff.1 hh
    right
    refine ⟨?_, by simp [hn]⟩
    unfold keep
    cases Update.span s with
    | none => rfl
    | some sp =>
      simp only
      split
      · rw [places_moved, hn]; rfl
      · rfl
  | some a =>
    obtain ⟨b, hb⟩ : ∃ b, (places s).getLast? = some b := by
      cases hl : (places s).getLast? with
      | none => rw [List.getLast?_eq_none_iff.1 hl] at hh; cases hh
      | some b => exact ⟨b, rfl⟩
    have hsp : ∃ sp, Update.span s = some sp ∧ sp.start = a.start ∧ sp.stop = b.stop := by
      rcases Update.span_places s with h | ⟨f, sp, rfl⟩
      · rw [h]; unfold Update.merged; rw [hh, hb]; exact ⟨_, rfl, rfl, rfl⟩
      · cases hh; cases hb; exact ⟨_, rfl, rfl, rfl⟩
    obtain ⟨sp, h1, h2, h3⟩ := hsp
    have hfirst : ∀ x ∈ places s, a.start ≤ x.start ∧ x.stop ≤ b.stop := by
      intro x hx
      constructor
      · cases hp : places s with
        | nil => rw [hp] at hx; cases hx
        | cons y l =>
          rw [hp] at hh hx ho
          cases hh
          rcases List.mem_cons.1 hx with rfl | hx
          · exact Nat.le_refl _
          · have := (List.pairwise_cons.1 ho.2).1 x hx
            have := ho.1 a (by simp)
            omega
      · obtain ⟨l, hl⟩ := List.getLast?_eq_some_iff.1 hb
        rw [hl] at hx ho
        rcases List.mem_append.1 hx with hx | hx
        · have := (List.pairwise_append.1 ho.2).2.2 x hx b (by simp)
          have := ho.1 b (by simp)
          omega
        · rw [List.mem_singleton.1 hx]
          exact Nat.le_refl _
    unfold keep
    rw [h1]
    simp only
    by_cases hcs : c.stop ≤ sp.start
    · rw [if_pos hcs]
      exact .inl ⟨places_moved c s, fun x hx => by have := hfirst x hx; omega⟩
    · rw [if_neg hcs]
      refine .inr ⟨rfl, fun x hx => ?_⟩
      have := hfirst x hx
      apply Nat.le_of_not_lt
      intro hlt
      exact ht ⟨a, b, hh, hb, .inl ⟨by omega, by omega⟩⟩

theorem mem_renew {new : Str} {c : TextChange} {aff : List Update.Kind} {sec : Section} {l : List Section} (h : sec ∈ l)
    (hk : Update.kind sec ∉ aff) : keep c sec ∈ renew new c aff l := by
  induction l with
  | nil => cases h
  | cons x l ih =>
    rw [renew]
    rcases List.mem_cons.1 h with rfl | h
    · rw [if_neg (by simpa using hk)]
      simp
    · exact List.mem_append_right _ (ih h)

end Verif.Incremental
