import Verif.Model.Str
namespace Verif

/-! ### splitting -/

theorem splitOn_ne_nil (sep : Char) (s : Str) : splitOn sep s ≠ [] := by
  cases s with
  | nil => simp [splitOn]
  | cons c cs =>
    simp only [splitOn]
    split
    · simp
    · split <;> simp

theorem splitOn_of_not_mem {sep : Char} {s : Str} (h : sep ∉ s) : splitOn sep s = [s] := by
  induction s with
  | nil => rfl
  | cons c cs ih =>
    have hc : c ≠ sep := by intro e; apply h; simp [e]
    have hcs : sep ∉ cs := by intro e; apply h; simp [e]
    simp [splitOn, hc, ih hcs]

theorem splitOn_append_sep {sep : Char} {a : Str} (b : Str) (h : sep ∉ a) :
    splitOn sep (a ++ sep :: b) = a :: splitOn sep b := by
  induction a with
  | nil => simp [splitOn]
  | cons c cs ih =>
    have hc : c ≠ sep := by intro e; apply h; simp [e]
    have hcs : sep ∉ cs := by intro e; apply h; simp [e]
    simp [splitOn, hc, ih hcs]

/-- Join pieces with a separator. -/
def joinSep (sep : Char) : List Str → Str
  | [] => []
  | [s] => s
  | s :: t :: r => s ++ sep :: joinSep sep (t :: r)

theorem joinSep_cons {sep : Char} {s : Str} {l : List Str} (h : l ≠ []) :
    joinSep sep (s :: l) = s ++ sep :: joinSep sep l := by
  cases l with
  | nil => exact absurd rfl h
  | cons a b => rfl

theorem joinSep_splitOn (sep : Char) (s : Str) : joinSep sep (splitOn sep s) = s := by
  induction s with
  | nil => rfl
  | cons c cs ih =>
    simp only [splitOn]
    split
    · next h => rw [joinSep_cons (splitOn_ne_nil sep cs), ih, h]; rfl
    · next h =>
      cases hs : splitOn sep cs with
      | nil => exact absurd hs (splitOn_ne_nil sep cs)
      | cons a l =>
        rw [hs] at ih
        simp only
        cases l with
        | nil => simp only [joinSep] at ih ⊢; rw [ih]
        | cons b l' => simp only [joinSep] at ih ⊢; rw [← ih]; rfl

theorem not_mem_of_mem_splitOn {sep : Char} {s p : Str} (h : p ∈ splitOn sep s) : sep ∉ p := by
  induction s generalizing p with
  | nil => simp [splitOn] at h; simp [h]
  | cons c cs ih =>
    simp only [splitOn] at h
    split at h
    · rcases List.mem_cons.1 h with h | h
      · simp [h]
      · exact ih h
    · next hc =>
      cases hs : splitOn sep cs with
      | nil => exact absurd hs (splitOn_ne_nil sep cs)
      | cons a l =>
        rw [hs] at h ih
        simp only [List.mem_cons] at h
        rcases h with h | h
        · subst h
          intro hm
          rcases List.mem_cons.1 hm with e | e
          · exact hc e.symm
          · exact ih (by simp) e
        · exact ih (by simp [h])

theorem splitOnce_append {sep : Char} {a : Str} (b : Str) (h : sep ∉ a) :
    splitOnce sep (a ++ sep :: b) = some (a, b) := by
  induction a with
  | nil => simp [splitOnce]
  | cons c cs ih =>
    have hc : c ≠ sep := by intro e; apply h; simp [e]
    have hcs : sep ∉ cs := by intro e; apply h; simp [e]
    simp [splitOnce, hc, ih hcs]

theorem splitOnce_none {sep : Char} {s : Str} (h : sep ∉ s) : splitOnce sep s = none := by
  induction s with
  | nil => rfl
  | cons c cs ih =>
    have hc : c ≠ sep := by intro e; apply h; simp [e]
    have hcs : sep ∉ cs := by intro e; apply h; simp [e]
    simp [splitOnce, hc, ih hcs]

theorem splitOnce_some {sep : Char} {s a b : Str} (h : splitOnce sep s = some (a, b)) :
    s = a ++ sep :: b ∧ sep ∉ a := by
  induction s generalizing a b with
  | nil => simp [splitOnce] at h
  | cons c cs ih =>
    simp only [splitOnce] at h
    split at h
    · next hc => simp at h; obtain ⟨rfl, rfl⟩ := h; simp [hc]
    · next hc =>
      split at h
      · simp at h
      · next a' b' h' =>
        simp at h
        obtain ⟨rfl, rfl⟩ := h
        obtain ⟨h1, h2⟩ := ih h'
        refine ⟨by simp [h1], ?_⟩
        simp [h2]
        exact fun e => hc e.symm

theorem splitOnce_eq_none {sep : Char} {s : Str} (h : splitOnce sep s = none) : sep ∉ s := by
  induction s with
  | nil => simp
  | cons c cs ih =>
    simp only [splitOnce] at h
    split at h
    · simp at h
    · next hc =>
      split at h
      · next h' => simp [ih h']; exact fun e => hc e.symm
      · simp at h

/-! ### digits -/

theorem digitVal_of_isDigit {c : Char} (h : c.isDigit) :
    digitVal 10 c = some (c.toNat - '0'.toNat) := by
  simp only [Char.isDigit, Bool.and_eq_true, decide_eq_true_eq] at h
  have h1 : '0' ≤ c := h.1
  have h2 : c ≤ '9' := h.2
  have h3 : c.toNat ≤ 57 := h2
  have h4 : 48 ≤ c.toNat := h1
  have e : '0'.toNat = 48 := rfl
  simp [digitVal, h1, h2, e]
  omega

theorem isDigit_of_digitVal {c : Char} {d : Nat} (h : digitVal 10 c = some d) : c.isDigit := by
  unfold digitVal at h
  simp only at h
  by_cases hd : ('0' ≤ c && c ≤ '9') = true
  · simp only [Bool.and_eq_true, decide_eq_true_eq] at hd
    simp only [Char.isDigit, Bool.and_eq_true, decide_eq_true_eq]
    exact hd
  · rw [if_neg hd] at h
    split at h
    · next d' hd' =>
      split at hd'
      · simp at hd'; subst hd'; split at h
        · omega
        · simp at h
      · split at hd'
        · simp at hd'; subst hd'; split at h
          · omega
          · simp at h
        · simp at hd'
    · simp at h

theorem digitsVal_of_digits {ds : Str} (h : ∀ c ∈ ds, c.isDigit) (acc : Nat) :
    digitsVal 10 acc ds = some (Nat.ofDigitChars 10 ds acc) := by
  induction ds generalizing acc with
  | nil => simp [digitsVal]
  | cons c cs ih =>
    have hc := h c (by simp)
    rw [digitsVal, digitVal_of_isDigit hc]
    simp only
    rw [ih (fun x hx => h x (by simp [hx])), Nat.ofDigitChars_cons, Nat.mul_comm]

theorem digits_of_digitsVal {ds : Str} {acc v : Nat} (h : digitsVal 10 acc ds = some v) :
    (∀ c ∈ ds, c.isDigit) ∧ Nat.ofDigitChars 10 ds acc = v := by
  have key : ∀ c ∈ ds, c.isDigit := by
    induction ds generalizing acc with
    | nil => simp
    | cons c cs ih =>
      rw [digitsVal] at h
      split at h
      · next d hd =>
        intro x hx
        rcases List.mem_cons.1 hx with e | e
        · subst e; exact isDigit_of_digitVal hd
        · exact ih h x e
      · simp at h
  refine ⟨key, ?_⟩
  rw [digitsVal_of_digits key] at h
  simpa using h

theorem showNat_digits (n : Nat) : ∀ c ∈ showNat n, c.isDigit := by
  intro c hc
  exact Nat.isDigit_of_mem_toDigits (by decide) (by decide) hc

theorem showNat_ne_nil (n : Nat) : showNat n ≠ [] := Nat.toDigits_ne_nil

theorem ofDigitChars_showNat (n : Nat) : Nat.ofDigitChars 10 (showNat n) 0 = n :=
  Nat.ofDigitChars_ten_toDigits

theorem showPad_digits (w n : Nat) : ∀ c ∈ showPad w n, c.isDigit := by
  intro c hc
  simp only [showPad, List.mem_append, List.mem_replicate] at hc
  rcases hc with ⟨_, rfl⟩ | hc
  · rfl
  · exact showNat_digits n c hc

theorem showPad_ne_nil (w n : Nat) : showPad w n ≠ [] := by
  simp [showPad, showNat_ne_nil]

theorem ofDigitChars_showPad (w n : Nat) : Nat.ofDigitChars 10 (showPad w n) 0 = n := by
  rw [showPad, Nat.ofDigitChars_append, Nat.ofDigitChars_replicate_zero]
  simp [ofDigitChars_showNat]

theorem not_isDigit_mem {s : Str} {c : Char} (h : ∀ x ∈ s, x.isDigit) (hc : c.isDigit = false) :
    c ∉ s := by
  intro hm
  rw [h c hm] at hc
  exact absurd hc (by decide)

/-- Parsing a non-empty digit string. -/
theorem parseUnsigned_digits {bound : Nat} {ds : Str} (hne : ds ≠ []) (h : ∀ c ∈ ds, c.isDigit) :
    parseUnsigned 10 bound ds =
      if Nat.ofDigitChars 10 ds 0 < bound then some (Nat.ofDigitChars 10 ds 0) else none := by
  cases ds with
  | nil => exact absurd rfl hne
  | cons c cs =>
    have hc : c ≠ '+' := by
      intro e
      have := h c (by simp)
      rw [e] at this
      exact absurd this (by decide)
    unfold parseUnsigned
    split
    · next e => injection e with e _; exact absurd e hc
    · next hx =>
      simp only [digitsVal_of_digits h]

theorem parseU32_digits {ds : Str} (hne : ds ≠ []) (h : ∀ c ∈ ds, c.isDigit)
    (hb : Nat.ofDigitChars 10 ds 0 < u32Bound) :
    parseU32 ds = some (Nat.ofDigitChars 10 ds 0) := by
  rw [parseU32, parseUnsigned_digits hne h, if_pos hb]

theorem parseU32_showNat {n : Nat} (h : n < u32Bound) : parseU32 (showNat n) = some n := by
  have := parseU32_digits (showNat_ne_nil n) (showNat_digits n)
    (by rw [ofDigitChars_showNat]; exact h)
  rwa [ofDigitChars_showNat] at this

theorem parseU32_showPad {w n : Nat} (h : n < u32Bound) : parseU32 (showPad w n) = some n := by
  have := parseU32_digits (showPad_ne_nil w n) (showPad_digits w n)
    (by rw [ofDigitChars_showPad]; exact h)
  rwa [ofDigitChars_showPad] at this

end Verif
