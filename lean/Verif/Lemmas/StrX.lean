import Verif.Model.StrX
import Verif.Lemmas.Bytes
import Verif.Lemmas.Str
/-! Lemmas about lines, string patterns and replacement. -/
namespace Verif

/-! ## Lines -/

theorem linesAux_append (cur l : Str) (hl : '\n' ∉ l) (rest : Str) :
    linesAux cur (l ++ '\n' :: rest) = stripCr (cur.reverse ++ l) :: linesAux [] rest := by
  induction l generalizing cur with
  | nil =>
    cases cur <;> simp [linesAux]
  | cons c l ih =>
    have hc : c ≠ '\n' := fun e => hl (by simp [e])
    have h2 : linesAux cur (c :: (l ++ '\n' :: rest)) = linesAux (c :: cur) (l ++ '\n' :: rest) := by
      cases cur <;> simp [linesAux, hc]
    rw [List.cons_append, h2, ih _ (fun h => hl (by simp [h]))]
    simp

theorem lines_append (l : Str) (hl : '\n' ∉ l) (rest : Str) :
    lines (l ++ '\n' :: rest) = stripCr l :: lines rest := by
  have := linesAux_append [] l hl rest
  simpa [lines] using this

@[simp] theorem lines_nil : lines [] = [] := rfl

theorem linesAux_last (cur l : Str) (hl : '\n' ∉ l) (hne : cur ≠ [] ∨ l ≠ []) :
    linesAux cur l = [cur.reverse ++ l] := by
  induction l generalizing cur with
  | nil =>
    cases cur with
    | nil => simp at hne
    | cons a b => simp [linesAux]
  | cons c l ih =>
    have hc : c ≠ '\n' := fun e => hl (by simp [e])
    have h2 : linesAux cur (c :: l) = linesAux (c :: cur) l := by
      cases cur <;> simp [linesAux, hc]
    rw [h2, ih _ (fun h => hl (by simp [h])) (.inl (by simp))]
    simp

theorem lines_last {l : Str} (hl : '\n' ∉ l) (hne : l ≠ []) : lines l = [l] := by
  have := linesAux_last [] l hl (.inr hne)
  simpa [lines] using this

theorem stripCr_of {l : Str} (h : l.getLast? ≠ some '\r') : stripCr l = l := by
  unfold stripCr; rw [if_neg h]

/-- A blank line at the end. -/
theorem linesAux_blank (cur c : Str) (hne : cur.reverse ++ c ≠ []) (h : ∀ x, (cur.reverse ++ c).getLast? = some x → x ≠ '\n' ∧ x ≠ '\r') :
    linesAux cur (c ++ "\n\n".toList) = linesAux cur c ++ [[]] := by
  induction c generalizing cur with
  | nil =>
    cases cur with
    | nil => simp at hne
    | cons a b =>
      have hs : stripCr (a :: b).reverse = (a :: b).reverse := stripCr_of (by
        intro e
        exact (h '\r' (by simpa using e)).2 rfl)
      simp only [List.nil_append, linesAux]
      show linesAux (a :: b) ['\n', '\n'] = _
      simp only [linesAux, if_true, hs]
      rfl
  | cons d c ih =>
    show linesAux cur (d :: (c ++ "\n\n".toList)) = _
    by_cases hd : d = '\n'
    · subst hd
      have e1 : ∀ t, linesAux cur ('\n' :: t) = stripCr cur.reverse :: linesAux [] t := by
        intro t; cases cur <;> simp [linesAux]
      have hc : c ≠ [] := by
        rintro rfl
        exact (h '\n' (by simp)).1 rfl
      rw [e1, e1, ih [] (by simpa using hc) ?_]
      · rfl
      · intro x hx
        refine h x ?_
        obtain ⟨y, hy⟩ := List.getLast?_isSome.2 hc |> Option.isSome_iff_exists.1
        simp [List.getLast?_append, List.getLast?_cons, hy] at hx ⊢
        exact hx
    · have e1 : ∀ t, linesAux cur (d :: t) = linesAux (d :: cur) t := by
        intro t; cases cur <;> simp [linesAux, hd]
      rw [e1, e1, ih (d :: cur) (by simp) (by simpa using h)]

theorem lines_blank {c : Str} (hne : c ≠ []) (h : ∀ x, c.getLast? = some x → x ≠ '\n' ∧ x ≠ '\r') :
    lines (c ++ "\n\n".toList) = lines c ++ [[]] :=
  linesAux_blank [] c (by simpa using hne) (by simpa using h)

/-! ## Searching -/

theorem splitOnceStr_some {pat s a b : Str} (h : splitOnceStr pat s = some (a, b)) :
    s = a ++ pat ++ b ∧ ∀ a' b', s = a' ++ pat ++ b' → a.length ≤ a'.length := by
  induction s generalizing a b with
  | nil =>
    unfold splitOnceStr at h
    split at h
    · next e => simp at h; obtain ⟨rfl, rfl⟩ := h; subst e; simp
    · simp at h
  | cons c s ih =>
    unfold splitOnceStr at h
    split at h
    · next r e =>
      simp at h; obtain ⟨rfl, rfl⟩ := h
      exact ⟨by rw [stripPrefix_iff.1 e]; simp, by simp⟩
    · next e =>
      split at h
      · next x y e' =>
        simp at h; obtain ⟨rfl, rfl⟩ := h
        obtain ⟨h1, h2⟩ := ih e'
        refine ⟨by simpa using h1, ?_⟩
        intro a' b' hab
        cases a' with
        | nil =>
          exact absurd (by simpa using hab) (stripPrefix_eq_none.1 e b')
        | cons z a' =>
          simp at hab
          have := h2 a' b' (by simpa using hab.2)
          simp; omega
      · simp at h

theorem splitOnceStr_none {pat s : Str} : splitOnceStr pat s = none ↔ ∀ a b, s ≠ a ++ pat ++ b := by
  induction s with
  | nil =>
    unfold splitOnceStr
    split
    · next e => subst e; simp
    · next e => simp; intro a b; simp [e]
  | cons c s ih =>
    unfold splitOnceStr
    split
    · next r e => simp; exact ⟨[], r, by simpa using stripPrefix_iff.1 e⟩
    · next e =>
      have h0 := stripPrefix_eq_none.1 e
      split
      · next x y e' =>
        simp
        obtain ⟨h1, _⟩ := splitOnceStr_some e'
        exact ⟨c :: x, y, by simpa using h1⟩
      · next e' =>
        simp only [true_iff]
        intro a b hab
        cases a with
        | nil => exact h0 b (by simpa using hab)
        | cons z a =>
          simp at hab
          exact ih.1 e' a b (by simpa using hab.2)

theorem containsStr_iff {pat s : Str} : containsStr pat s = true ↔ ∃ a b, s = a ++ pat ++ b := by
  unfold containsStr
  constructor
  · intro h
    obtain ⟨⟨a, b⟩, e⟩ := Option.isSome_iff_exists.1 h
    exact ⟨a, b, (splitOnceStr_some e).1⟩
  · rintro ⟨a, b, e⟩
    cases h : splitOnceStr pat s with
    | some => rfl
    | none => exact absurd e (splitOnceStr_none.1 h a b)

theorem containsStr_false {pat s : Str} : containsStr pat s = false ↔ ∀ a b, s ≠ a ++ pat ++ b := by
  rw [← splitOnceStr_none]
  unfold containsStr
  cases splitOnceStr pat s <;> simp

/-- The first occurrence, given that none starts earlier. -/
theorem splitOnceStr_first {pat a b : Str}
    (h : ∀ a' b', a ++ pat ++ b = a' ++ pat ++ b' → a.length ≤ a'.length) :
    splitOnceStr pat (a ++ pat ++ b) = some (a, b) := by
  cases e : splitOnceStr pat (a ++ pat ++ b) with
  | none => exact absurd rfl (splitOnceStr_none.1 e a b)
  | some p =>
    obtain ⟨x, y⟩ := p
    obtain ⟨h1, h2⟩ := splitOnceStr_some e
    have l1 := h x y h1
    have l2 := h2 a b rfl
    have hl : a.length = x.length := by omega
    rw [List.append_assoc, List.append_assoc] at h1
    obtain ⟨e1, e2⟩ := List.append_inj h1 hl
    rw [e1, List.append_cancel_left e2]

/-- The first occurrence, when the pattern's first character does not appear before. -/
theorem splitOnceStr_of_not_mem {p : Char} {ps a : Str} (b : Str) (h : p ∉ a) :
    splitOnceStr (p :: ps) (a ++ p :: ps ++ b) = some (a, b) := by
  apply splitOnceStr_first
  intro a' b' e
  rw [List.append_assoc, List.append_assoc] at e
  rcases List.append_eq_append_iff.1 e with ⟨x, e1, _⟩ | ⟨x, e1, e2⟩
  · rw [e1]; simp
  · cases x with
    | nil => rw [e1]; simp
    | cons y x =>
      simp at e2
      exact absurd (by rw [e1, e2.1]; simp) h

theorem splitStr_of_lacks {pat s : Str} (h : ∀ a b, s ≠ a ++ pat ++ b) : splitStr pat s = [s] := by
  unfold splitStr
  cases hs : s.length with
  | zero => rfl
  | succ k => unfold splitStrAux; rw [splitOnceStr_none.2 h]

theorem splitStrAux_fuel {pat : Str} (hp : pat ≠ []) (k j : Nat) (s : Str) (h1 : s.length ≤ k) (h2 : s.length ≤ j) :
    splitStrAux pat k s = splitStrAux pat j s := by
  have base : ∀ j, splitStrAux pat j [] = [[]] := by
    intro j
    cases j with
    | zero => rfl
    | succ j => unfold splitStrAux; simp [splitOnceStr, hp]
  induction k generalizing j s with
  | zero =>
    have : s = [] := List.length_eq_zero_iff.1 (by omega)
    subst this
    rw [base, base]
  | succ k ih =>
    cases j with
    | zero =>
      have : s = [] := List.length_eq_zero_iff.1 (by omega)
      subst this
      rw [base, base]
    | succ j =>
      unfold splitStrAux
      cases e : splitOnceStr pat s with
      | none => rfl
      | some p =>
        obtain ⟨a, b⟩ := p
        have h := (splitOnceStr_some e).1
        have hl : b.length < s.length := by
          rw [h]; simp
          have := List.length_pos_iff.2 hp
          omega
        simp only
        rw [ih j b (by omega) (by omega)]

theorem splitStr_cons {pat s a b : Str} (hp : pat ≠ []) (h : splitOnceStr pat s = some (a, b)) :
    splitStr pat s = a :: splitStr pat b := by
  have hs := (splitOnceStr_some h).1
  have hl : b.length < s.length := by
    rw [hs]; simp
    have := List.length_pos_iff.2 hp
    omega
  unfold splitStr
  match hk : s.length, hl with
  | k + 1, hl =>
    conv => lhs; unfold splitStrAux
    rw [h]
    simp only
    rw [splitStrAux_fuel hp k b.length b (by omega) (Nat.le_refl _)]

/-! ## Replacing -/

theorem replaceAux_skip (pat rep x s : Str) : replaceAux pat rep x.length (x ++ s) = replaceAux pat rep 0 s := by
  induction x with
  | nil => rfl
  | cons c x ih => simpa [replaceAux] using ih

theorem replaceAll_prefix {pat : Str} (rep : Str) (hp : pat ≠ []) (s : Str) :
    replaceAll pat rep (pat ++ s) = rep ++ replaceAll pat rep s := by
  cases pat with
  | nil => exact absurd rfl hp
  | cons p ps =>
    unfold replaceAll
    have e : stripPrefix (p :: ps) (p :: (ps ++ s)) = some s := stripPrefix_append (p :: ps) s
    conv => lhs; rw [List.cons_append]; unfold replaceAux
    rw [e]
    simp only [List.length_cons, Nat.add_sub_cancel]
    rw [replaceAux_skip]

theorem replaceAll_cons {pat rep : Str} {c : Char} {s : Str} (h : stripPrefix pat (c :: s) = none) :
    replaceAll pat rep (c :: s) = c :: replaceAll pat rep s := by
  unfold replaceAll
  conv => lhs; unfold replaceAux
  rw [h]

@[simp] theorem replaceAll_nil (pat rep : Str) : replaceAll pat rep [] = [] := rfl

/-- Up to the first occurrence nothing changes. -/
theorem replaceAll_split {pat rep s a b : Str} (hp : pat ≠ []) (h : splitOnceStr pat s = some (a, b)) :
    replaceAll pat rep s = a ++ rep ++ replaceAll pat rep b := by
  induction s generalizing a b with
  | nil => unfold splitOnceStr at h; simp [hp] at h
  | cons c s ih =>
    unfold splitOnceStr at h
    split at h
    · next r e =>
      simp at h; obtain ⟨rfl, rfl⟩ := h
      rw [stripPrefix_iff.1 e, replaceAll_prefix rep hp]; simp
    · next e =>
      split at h
      · next x y e' =>
        simp at h; obtain ⟨rfl, rfl⟩ := h
        rw [replaceAll_cons e, ih e']; simp
      · simp at h

theorem replaceAll_lacks {pat rep s : Str} (h : ∀ a b, s ≠ a ++ pat ++ b) : replaceAll pat rep s = s := by
  induction s with
  | nil => rfl
  | cons c s ih =>
    rw [replaceAll_cons, ih]
    · intro a b e; exact h (c :: a) b (by rw [e]; simp)
    · rw [stripPrefix_eq_none]
      intro t e
      exact h [] t (by simpa using e)

/-- Replacing is splitting and joining. -/
theorem replaceAll_eq_join {pat rep : Str} (hp : pat ≠ []) (s : Str) :
    replaceAll pat rep s = joinStr rep (splitStr pat s) := by
  generalize hn : s.length = n
  induction n using Nat.strongRecOn generalizing s with
  | _ n ih =>
    cases e : splitOnceStr pat s with
    | none =>
      rw [splitStr_of_lacks (splitOnceStr_none.1 e), replaceAll_lacks (splitOnceStr_none.1 e)]; rfl
    | some p =>
      obtain ⟨a, b⟩ := p
      have hs := (splitOnceStr_some e).1
      have hl : b.length < n := by
        rw [← hn, hs]; simp
        have := List.length_pos_iff.2 hp
        omega
      rw [replaceAll_split hp e, splitStr_cons hp e, ih _ hl b rfl]
      have hne : splitStr pat b ≠ [] := by
        unfold splitStr
        cases b.length with
        | zero => simp [splitStrAux]
        | succ k => unfold splitStrAux; split <;> simp
      match splitStr pat b, hne with
      | x :: l, _ => rfl

theorem lacks_of_not_mem {p : Char} {ps s : Str} (h : p ∉ s) : ∀ a b, s ≠ a ++ p :: ps ++ b := by
  intro a b e
  exact h (by rw [e]; simp)

theorem lacks_cons {pat : Str} {c : Char} {s : Str} :
    (∀ a b, c :: s ≠ a ++ pat ++ b) ↔ stripPrefix pat (c :: s) = none ∧ ∀ a b, s ≠ a ++ pat ++ b := by
  constructor
  · intro h
    refine ⟨stripPrefix_eq_none.2 (fun t e => h [] t (by simpa using e)), fun a b e => h (c :: a) b (by rw [e]; simp)⟩
  · rintro ⟨h1, h2⟩ a b e
    cases a with
    | nil => exact stripPrefix_eq_none.1 h1 b (by simpa using e)
    | cons x a => simp at e; exact h2 a b (by simpa using e.2)

theorem startsWith_iff {p s : Str} : startsWith p s = true ↔ ∃ t, s = p ++ t := by
  unfold startsWith
  rw [Option.isSome_iff_exists]
  simp [stripPrefix_iff]

theorem startsWith_false {p s : Str} : startsWith p s = false ↔ ∀ t, s ≠ p ++ t := by
  unfold startsWith
  rw [← stripPrefix_eq_none]
  cases stripPrefix p s <;> simp

end Verif
