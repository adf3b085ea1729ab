import Verif.Model.Handlers
import Verif.Spec.Handlers
import Verif.Lemmas.Registry
import Verif.Lemmas.InfoCmd
import Verif.Lemmas.StyleCmd
import Verif.Lemmas.Time
namespace Verif.Handlers
open Verif Verif.Registry Verif.Spec Verif.Spec.Args Verif.Spec.EventCmd
open Verif.Spec.InfoCmd (Stripped)
open Verif.Override (isDig parseI32)

/-! ## Blanks -/

theorem stripped_eq {s w : Str} (h : Stripped s w) : trim s = w := by
  obtain ⟨⟨h1, h2⟩, a, b, rfl, ha, hb⟩ := h
  cases w with
  | nil =>
    have : ∀ c ∈ a ++ [] ++ b, isWs c = true := by
      intro c hc
      simp only [List.append_nil, List.mem_append] at hc
      rcases hc with hc | hc
      · exact (SrtDoc.white_iff c).2 (ha c hc)
      · exact (SrtDoc.white_iff c).2 (hb c hc)
    unfold trim trimStart
    rw [dropWhile_all this]; rfl
  | cons c t =>
    exact Color.trim_pad (fun c hc => (SrtDoc.white_iff c).2 (ha c hc)) (fun c hc => (SrtDoc.white_iff c).2 (hb c hc))
      (by simp) (fun c hc => SrtDoc.not_white (h1 c hc)) (fun c hc => SrtDoc.not_white (h2 c hc))

theorem padded_iff {P : Str → Prop} {s : Str} : Padded P s ↔ P (trim s) := by
  constructor
  · rintro ⟨w, h, hp⟩; rw [stripped_eq h]; exact hp
  · intro h; exact ⟨_, InfoCmd.stripped_trim s, h⟩

theorem trim_left {w s : Str} (h : ∀ c ∈ w, White c) : trim (w ++ s) = trim s := by
  obtain ⟨ht, a, b, e, ha, hb⟩ := InfoCmd.stripped_trim s
  apply stripped_eq
  refine ⟨ht, w ++ a, b, by simp only [List.append_assoc] at e ⊢; rw [← e], ?_, hb⟩
  intro c hc
  rcases List.mem_append.1 hc with hc | hc
  · exact h c hc
  · exact ha c hc

theorem trim_right {w s : Str} (h : ∀ c ∈ w, White c) : trim (s ++ w) = trim s := by
  obtain ⟨ht, a, b, e, ha, hb⟩ := InfoCmd.stripped_trim s
  apply stripped_eq
  refine ⟨ht, a, b ++ w, ?_, ha, ?_⟩
  · rw [← List.append_assoc, ← e]
  · intro c hc
    rcases List.mem_append.1 hc with hc | hc
    · exact hb c hc
    · exact h c hc

theorem comma_not_white {w : Str} (h : ∀ c ∈ w, White c) : ',' ∉ w := by
  intro hc
  have := h _ hc
  revert this; unfold White; decide

theorem splitOn_left {a : Str} (ha : ',' ∉ a) (s : Str) :
    ∃ h t, splitOn ',' s = h :: t ∧ splitOn ',' (a ++ s) = (a ++ h) :: t := by
  induction a with
  | nil =>
    cases e : splitOn ',' s with
    | nil => exact absurd e (splitOn_ne_nil _ _)
    | cons h t => exact ⟨h, t, rfl, by simpa using e⟩
  | cons c a ih =>
    obtain ⟨h, t, e1, e2⟩ := ih (fun h => ha (by simp [h]))
    have hc : c ≠ ',' := fun e => ha (by simp [e])
    exact ⟨h, t, e1, by rw [List.cons_append]; simp only [splitOn, hc, if_false, e2]; rfl⟩

theorem splitOn_right {b : Str} (hb : ',' ∉ b) (s : Str) :
    ∃ i l, splitOn ',' s = i ++ [l] ∧ splitOn ',' (s ++ b) = i ++ [l ++ b] := by
  induction s with
  | nil => exact ⟨[], [], rfl, by simpa using splitOn_of_not_mem hb⟩
  | cons c s ih =>
    obtain ⟨i, l, e1, e2⟩ := ih
    by_cases hc : c = ','
    · exact ⟨[] :: i, l, by simp [splitOn, hc, e1], by simp [splitOn, hc, e2]⟩
    · cases i with
      | nil => exact ⟨[], c :: l, by simp [splitOn, hc, e1], by simp [splitOn, hc, e2]⟩
      | cons x i => exact ⟨(c :: x) :: i, l, by simp [splitOn, hc, e1], by simp [splitOn, hc, e2]⟩

theorem splitOn_trim (s : Str) : (splitOn ',' (trim s)).map trim = (splitOn ',' s).map trim := by
  obtain ⟨_, a, b, e, ha, hb⟩ := InfoCmd.stripped_trim s
  have h1 : (splitOn ',' s).map trim = (splitOn ',' (a ++ trim s)).map trim := by
    rw [e]
    obtain ⟨i, l, e1, e2⟩ := splitOn_right (comma_not_white hb) (a ++ trim s)
    rw [e] at e1 e2
    rw [stripped_eq ⟨(InfoCmd.stripped_trim s).1, a, b, rfl, ha, hb⟩] at e1 e2 ⊢
    rw [e1, e2]; simp [trim_right hb]
  rw [h1]
  obtain ⟨h, t, e1, e2⟩ := splitOn_left (comma_not_white ha) (trim s)
  rw [e1, e2]; simp [trim_left ha]

/-! ## Numbers -/

theorem dig_iff (c : Char) : isDig c = true ↔ c.isDigit = true := by
  rw [Override.isDig_iff, Override.isDigit_iff]

theorem byteLen_eq_zero {s : Str} (h : byteLen s = 0) : s = [] := by
  cases s with
  | nil => rfl
  | cons c s => rw [byteLen_cons] at h; have := utf8Size_pos c; omega

theorem numLoop_true (len start : Nat) (s : Str) : ∀ i,
    numLoop len start i true s = true ↔ ∀ c ∈ s, c.isDigit = true := by
  induction s with
  | nil => intro i; simp [numLoop]
  | cons c s ih =>
    intro i
    unfold numLoop
    by_cases hc : isDig c = true
    · rw [if_pos hc, ih]
      simp [(dig_iff c).1 hc]
    · rw [if_neg hc]
      have : ¬ c.isDigit = true := fun h => hc ((dig_iff c).2 h)
      constructor
      · intro h
        by_cases hd : c = '.'
        · rw [if_pos hd] at h; simp at h
        · rw [if_neg hd] at h; cases h
      · intro h; exact absurd (h c (by simp)) this

theorem numLoop_false (len start : Nat) (s : Str) : ∀ i, len = i + byteLen s →
    (numLoop len start i false s = true ↔ (∀ c ∈ s, c.isDigit = true) ∨
      ∃ d f, s = d ++ '.' :: f ∧ (∀ c ∈ d, c.isDigit = true) ∧ Digits f ∧ i + d.length ≠ start) := by
  induction s with
  | nil => intro i _; simp [numLoop]
  | cons c s ih =>
    intro i hl
    unfold numLoop
    rw [byteLen_cons] at hl
    by_cases hc : isDig c = true
    · have hcd := (dig_iff c).1 hc
      have h1 : c.utf8Size = 1 := Override.size_one (by
        have := (Override.isDig_iff c).1 hc; unfold Spec.Ovr.Digit at this; omega)
      rw [if_pos hc, ih (i + 1) (by omega)]
      constructor
      · rintro (h | ⟨d, f, e, hd, hf, hs⟩)
        · left; simpa [hcd] using h
        · right; exact ⟨c :: d, f, by simp [e], by simpa [hcd] using hd, hf, by simp; omega⟩
      · rintro (h | ⟨d, f, e, hd, hf, hs⟩)
        · left; exact fun x hx => h x (by simp [hx])
        · cases d with
          | nil =>
            simp at e; rw [e.1] at hcd; exact absurd hcd (by decide)
          | cons x d =>
            simp at e
            right; exact ⟨d, f, e.2, fun y hy => hd y (by simp [hy]), hf, by simp at hs; omega⟩
    · rw [if_neg hc]
      have hnd : ¬ c.isDigit = true := fun h => hc ((dig_iff c).2 h)
      by_cases hd : c = '.'
      · subst hd
        rw [if_pos rfl]
        have hsz : ('.' : Char).utf8Size = 1 := by decide
        rw [hsz] at hl
        constructor
        · intro h
          by_cases hb : (false || i == start || i == len - 1) = true
          · rw [if_pos hb] at h; cases h
          · rw [if_neg hb, numLoop_true] at h
            simp at hb
            right
            refine ⟨[], s, rfl, by simp, ⟨?_, h⟩, by simpa using hb.1⟩
            intro hs
            rw [hs, byteLen_nil] at hl
            exact hb.2 (by omega)
        · rintro (h | ⟨d, f, e, hd, hf, hs⟩)
          · exact absurd (h '.' (by simp)) (by decide)
          · cases d with
            | nil =>
              simp at e
              subst e
              have hb : ¬ (false || i == start || i == len - 1) = true := by
                simp
                refine ⟨by simpa using hs, ?_⟩
                have : byteLen s ≠ 0 := fun h => hf.1 (byteLen_eq_zero h)
                omega
              rw [if_neg hb, numLoop_true]
              exact hf.2
            | cons x d =>
              simp at e
              exact absurd (hd x (by simp)) (by rw [← e.1]; decide)
      · rw [if_neg hd]
        simp only [Bool.false_eq_true, false_iff]
        rintro (h | ⟨d, f, e, hd', hf, hs⟩)
        · exact hnd (h c (by simp))
        · cases d with
          | nil => simp at e; exact hd e.1
          | cons x d => simp at e; exact hnd (by rw [e.1]; exact hd' x (by simp))

theorem isNumeric_iff (s : Str) : isNumeric s = true ↔ Number s := by
  cases s with
  | nil =>
    simp only [isNumeric, Bool.false_eq_true, false_iff]
    rintro ⟨sign, ds, frac, e, _, hd, _⟩
    simp at e
    exact hd.1 e.2.1
  | cons c t =>
    unfold isNumeric
    simp only
    by_cases hc : c = '-' ∨ c = '+'
    · rw [if_pos hc]
      have hsz : c.utf8Size = 1 := by rcases hc with rfl | rfl <;> decide
      have hcd : ¬ c.isDigit = true := by rcases hc with rfl | rfl <;> decide
      by_cases h1 : byteLen (c :: t) = 1
      · rw [if_pos h1]
        rw [byteLen_cons, hsz] at h1
        have : t = [] := byteLen_eq_zero (by omega)
        subst this
        simp only [Bool.false_eq_true, false_iff]
        rintro ⟨sign, ds, frac, e, hs, hd, _⟩
        rcases hs with rfl | rfl | rfl
        · cases ds with
          | nil => exact hd.1 rfl
          | cons x ds => simp at e; exact hcd (by rw [e.1]; exact hd.2 x (by simp))
        · simp at e; exact hd.1 e.2.1
        · simp at e; exact hd.1 e.2.1
      · rw [if_neg h1, numLoop_false _ _ _ _ (by rw [byteLen_cons, hsz])]
        rw [byteLen_cons, hsz] at h1
        have hne : t ≠ [] := fun h => h1 (by rw [h]; rfl)
        constructor
        · rintro (h | ⟨d, f, e, hd, hf, hs⟩)
          · refine ⟨[c], t, [], by simp, ?_, ⟨hne, h⟩, .inl rfl⟩
            rcases hc with rfl | rfl <;> simp
          · refine ⟨[c], d, '.' :: f, by simp [e], ?_, ⟨?_, hd⟩, .inr ⟨f, rfl, hf⟩⟩
            · rcases hc with rfl | rfl <;> simp
            · rintro rfl; simp at hs
        · rintro ⟨sign, ds, frac, e, hs, hd, hf⟩
          have key : t = ds ++ frac := by
            rcases hs with rfl | rfl | rfl
            · cases ds with
              | nil => exact absurd rfl hd.1
              | cons x ds => simp at e; exact absurd (hd.2 x (by simp)) (by rw [← e.1]; exact hcd)
            · simp at e; exact e.2
            · simp at e; exact e.2
          subst key
          rcases hf with rfl | ⟨fs, rfl, hfs⟩
          · left; simpa using hd.2
          · right; refine ⟨ds, fs, rfl, hd.2, hfs, ?_⟩
            have := List.length_pos_iff.2 hd.1
            omega
    · rw [if_neg hc, numLoop_false _ _ _ _ (by omega)]
      constructor
      · rintro (h | ⟨d, f, e, hd, hf, hs⟩)
        · exact ⟨[], c :: t, [], by simp, .inl rfl, ⟨by simp, h⟩, .inl rfl⟩
        · refine ⟨[], d, '.' :: f, by simp [e], .inl rfl, ⟨?_, hd⟩, .inr ⟨f, rfl, hf⟩⟩
          rintro rfl; simp at hs
      · rintro ⟨sign, ds, frac, e, hs, hd, hf⟩
        have key : c :: t = ds ++ frac := by
          rcases hs with rfl | rfl | rfl
          · simpa using e
          · simp at e; exact absurd (.inl e.1) hc
          · simp at e; exact absurd (.inr e.1) hc
        rw [key]
        rcases hf with rfl | ⟨fs, rfl, hfs⟩
        · left; simpa using hd.2
        · right; refine ⟨ds, fs, rfl, hd.2, hfs, ?_⟩
          have := List.length_pos_iff.2 hd.1
          omega

/-! ## Slices -/

theorem startsWith_iff' {p s : Str} : startsWith p s = true ↔ ∃ t, s = p ++ t := by
  unfold startsWith
  rw [Option.isSome_iff_exists]
  constructor
  · rintro ⟨t, h⟩; exact ⟨t, stripPrefix_iff.1 h⟩
  · rintro ⟨t, h⟩; exact ⟨t, stripPrefix_iff.2 h⟩

theorem endsWith_one {c : Char} {s : Str} : endsWith [c] s = true ↔ ∃ t, s = t ++ [c] := by
  unfold endsWith
  rw [startsWith_iff']
  constructor
  · rintro ⟨t, h⟩
    refine ⟨t.reverse, ?_⟩
    have := congrArg List.reverse h
    simpa using this
  · rintro ⟨t, rfl⟩; exact ⟨t.reverse, by simp⟩

theorem hex_iff (c : Char) : isHexDigit c = true ↔ ∃ v, hexDigit c = some v := by
  constructor
  · intro h
    unfold isHexDigit at h
    simp only [Bool.or_eq_true, Bool.and_eq_true, decide_eq_true_eq] at h
    have key : c.toNat ∈ ((List.range 10).map (· + 48) ++ (List.range 6).map (· + 97) ++ (List.range 6).map (· + 65)) := by
      simp only [List.mem_append, List.mem_map, List.mem_range]
      have e1 : ∀ a b : Char, a ≤ b ↔ a.toNat ≤ b.toNat := fun a b => by
        rw [Char.le_def]; exact UInt32.le_iff_toNat_le
      simp only [e1] at h
      rcases h with (h | h) | h
      · left; left; exact ⟨c.toNat - 48, by have : ('9' : Char).toNat = 57 := rfl; omega, by have : ('0' : Char).toNat = 48 := rfl; omega⟩
      · left; right; exact ⟨c.toNat - 97, by have : ('f' : Char).toNat = 102 := rfl; omega, by have : ('a' : Char).toNat = 97 := rfl; omega⟩
      · right; exact ⟨c.toNat - 65, by have : ('F' : Char).toNat = 70 := rfl; omega, by have : ('A' : Char).toNat = 65 := rfl; omega⟩
    have hall : ∀ n ∈ ((List.range 10).map (· + 48) ++ (List.range 6).map (· + 97) ++ (List.range 6).map (· + 65)),
        (hexDigit (Char.ofNat n)).isSome = true := by decide
    have := hall _ key
    rw [Char.ofNat_toNat] at this
    exact Option.isSome_iff_exists.1 this
  · rintro ⟨v, h⟩; exact (Color.hexDigit_cases h).2.1

/-- A text with a given beginning and end. -/
theorem wrap {p w : Str} {c : Char} (h1 : startsWith p w = true) (h2 : endsWith [c] w = true)
    (hl : byteLen p < byteLen w) : ∃ m, w = p ++ m ++ [c] := by
  obtain ⟨t, ht⟩ := startsWith_iff'.1 h1
  obtain ⟨u, hu⟩ := endsWith_one.1 h2
  have hne : t ≠ [] := by
    rintro rfl
    rw [ht] at hl; simp at hl
  refine ⟨t.dropLast, ?_⟩
  have : t = t.dropLast ++ [t.getLast hne] := (List.dropLast_concat_getLast hne).symm
  rw [this] at ht
  have e : p ++ t.dropLast ++ [t.getLast hne] = u ++ [c] := by rw [List.append_assoc, ← ht, hu]
  have := (List.append_inj_right' e rfl)
  rw [← this, List.append_assoc, ← ht]

theorem slice_wrap (p m : Str) (c : Char) (f : Str → Bool) :
    onSlice (p ++ m ++ [c]) (byteLen p) (byteLen p + byteLen m) f = .ok (f m) := by
  unfold onSlice; rw [sliceBytes_append]

theorem endsWith_snoc (s : Str) (c : Char) : endsWith [c] (s ++ [c]) = true := endsWith_one.2 ⟨s, rfl⟩

theorem startsWith_append (p s : Str) : startsWith p (p ++ s) = true := startsWith_iff'.2 ⟨s, rfl⟩

theorem hexArgs_iff (n : Nat) (w : Str) : ∃ b, hexArgs n w = .ok b ∧ (b = true ↔ Hex n w) := by
  unfold hexArgs
  have hb : byteLen "&H".toList = 2 := by decide
  by_cases h : (!startsWith "&H".toList w || !endsWith ['&'] w || decide (byteLen w ≠ n + 3)) = true
  · rw [if_pos h]
    refine ⟨false, rfl, ?_⟩
    simp only [Bool.false_eq_true, false_iff]
    rintro ⟨ds, rfl, hn, hd⟩
    have h1 : byteLen ds = n := by
      rw [← hn]; apply Color.byteLen_of_ascii
      intro c hc; obtain ⟨v, hv⟩ := hd c hc; exact (Color.hexDigit_cases hv).2.2.2.2.1
    have e : '&' :: 'H' :: ds ++ ['&'] = "&H".toList ++ ds ++ ['&'] := rfl
    rw [e, endsWith_snoc, List.append_assoc, startsWith_append, ← List.append_assoc, byteLen_append, byteLen_append, hb, h1] at h
    have : byteLen ['&'] = 1 := by decide
    rw [this] at h
    simp at h
    omega
  · rw [if_neg h]
    simp only [Bool.or_eq_true, Bool.not_eq_true', decide_eq_true_eq, not_or, Bool.not_eq_false, Decidable.not_not] at h
    obtain ⟨⟨h1, h2⟩, h3⟩ := h
    obtain ⟨m, rfl⟩ := wrap h1 h2 (by rw [hb]; omega)
    have h4 : byteLen m = n := by
      rw [byteLen_append, byteLen_append, hb] at h3
      have : byteLen ['&'] = 1 := by decide
      omega
    refine ⟨m.all isHexDigit, ?_, ?_⟩
    · have := slice_wrap "&H".toList m '&' (fun t => t.all isHexDigit)
      rw [hb, h4, Nat.add_comm] at this
      exact this
    · rw [List.all_eq_true]
      constructor
      · intro h
        refine ⟨m, rfl, ?_, fun c hc => (hex_iff c).1 (h c hc)⟩
        rw [← h4]; symm; apply Color.byteLen_of_ascii
        intro c hc; obtain ⟨v, hv⟩ := (hex_iff c).1 (h c hc); exact (Color.hexDigit_cases hv).2.2.2.2.1
      · rintro ⟨ds, e, hn, hd⟩
        have : m = ds := by
          have e' : "&H".toList ++ m ++ ['&'] = "&H".toList ++ ds ++ ['&'] := e
          simpa using e'
        subst this
        exact fun c hc => (hex_iff c).2 (hd c hc)

theorem inParens_iff (args : Str) (f : Str → Bool) (P : Str → Prop) (hf : ∀ t, f t = true ↔ P t) :
    ∃ b, inParens args f = .ok b ∧ (b = true ↔ Padded (Parens P) args) := by
  rw [padded_iff]
  unfold inParens
  simp only
  generalize trim args = w
  have hb : byteLen "(".toList = 1 := by decide
  by_cases h : (!startsWith "(".toList w || !endsWith ")".toList w) = true
  · rw [if_pos h]
    refine ⟨false, rfl, ?_⟩
    simp only [Bool.false_eq_true, false_iff]
    rintro ⟨t, rfl, _⟩
    have e : '(' :: t ++ [')'] = "(".toList ++ t ++ ")".toList := rfl
    rw [e] at h
    have h1 : startsWith "(".toList ("(".toList ++ t ++ ")".toList) = true := by
      rw [List.append_assoc]; exact startsWith_append _ _
    have h2 : endsWith ")".toList ("(".toList ++ t ++ ")".toList) = true := endsWith_snoc _ _
    rw [h1, h2] at h
    cases h
  · rw [if_neg h]
    simp only [Bool.or_eq_true, Bool.not_eq_true', not_or, Bool.not_eq_false] at h
    obtain ⟨m, rfl⟩ := wrap h.1 (c := ')') h.2 (by
      obtain ⟨t, ht⟩ := startsWith_iff'.1 h.1
      obtain ⟨u, hu⟩ := (endsWith_one (c := ')')).1 h.2
      cases t with
      | nil =>
        rw [ht] at hu
        have := congrArg List.getLast? hu
        simp at this
      | cons c t =>
        rw [ht, byteLen_append, byteLen_cons]
        have := utf8Size_pos c
        omega)
    refine ⟨f m, ?_, ?_⟩
    · have := slice_wrap "(".toList m ')' f
      rw [hb] at this
      rw [show byteLen ("(".toList ++ m ++ [')']) - 1 = 1 + byteLen m by
        rw [byteLen_append, byteLen_append, hb, show byteLen [')'] = 1 by decide]; omega]
      exact this
    · rw [hf]
      constructor
      · intro h; exact ⟨m, rfl, h⟩
      · rintro ⟨t, e, ht⟩
        have : m = t := by
          have e' : "(".toList ++ m ++ [')'] = "(".toList ++ t ++ [')'] := e
          simpa using e'
        subst this; exact ht

/-! ## Lists -/

theorem csv_join (l : List Str) : joinSep ',' l = csv l := by
  match l with
  | [] => rfl
  | [_] => rfl
  | x :: y :: l => rw [joinSep, csv, csv_join (y :: l)]

theorem items_iff (Ps : List (Str → Prop)) (hne : Ps ≠ []) (s : Str) : Items Ps s ↔ EachOne Ps (splitOn ',' s) := by
  constructor
  · rintro ⟨parts, rfl, h⟩
    have hc : ∀ (Ps : List (Str → Prop)) (parts : List Str), EachOne Ps parts → ∀ x ∈ parts, ',' ∉ x := by
      intro Ps
      induction Ps with
      | nil => intro parts h; cases parts <;> simp_all [EachOne]
      | cons P Ps ih =>
        intro parts h
        cases parts with
        | nil => simp [EachOne] at h
        | cons p ps =>
          obtain ⟨h1, _, h3⟩ := h
          intro x hx
          rcases List.mem_cons.1 hx with rfl | hx
          · exact h1
          · exact ih ps h3 x hx
    have hn : parts ≠ [] := by
      rintro rfl
      cases Ps with
      | nil => exact hne rfl
      | cons => simp [EachOne] at h
    rw [StyleCmd.splitOn_csv hn (hc _ _ h)]
    exact h
  · intro h
    exact ⟨_, by rw [← csv_join, joinSep_splitOn], h⟩

/-- Checking the pieces one by one. -/
def checks : List (Str → Bool) → List Str → Bool
  | [], [] => true
  | f :: fs, p :: ps => f p && checks fs ps
  | _, _ => false

theorem checks_each : ∀ (fs : List (Str → Bool)) (Ps : List (Str → Prop)) (parts : List Str),
    fs.length = Ps.length → (∀ i, ∀ (h1 : i < fs.length) (h2 : i < Ps.length), ∀ t, fs[i] t = true ↔ Ps[i] t) →
    (∀ x ∈ parts, ',' ∉ x) → (checks fs (parts.map trim) = true ↔ EachOne Ps parts)
  | [], [], [], _, _, _ => by simp [checks, EachOne]
  | [], [], _ :: _, _, _, _ => by simp [checks, EachOne]
  | _ :: _, _ :: _, [], _, _, _ => by simp [checks, EachOne]
  | f :: fs, P :: Ps, p :: ps, hl, h, hc => by
    have ih := checks_each fs Ps ps (by simpa using hl)
      (fun i h1 h2 t => by have := h (i + 1) (by simp; omega) (by simp; omega) t; simpa using this)
      (fun x hx => hc x (by simp [hx]))
    simp only [List.map_cons, checks, Bool.and_eq_true, EachOne, ih, padded_iff]
    have h0 := h 0 (by simp) (by simp) (trim p)
    simp only [List.getElem_cons_zero] at h0
    rw [h0]
    simp [hc p (by simp)]
  | [], _ :: _, _, hl, _, _ => by simp at hl
  | _ :: _, [], _, hl, _, _ => by simp at hl

theorem checks_items (fs : List (Str → Bool)) (Ps : List (Str → Prop)) (s : Str) (hne : Ps ≠ [])
    (hl : fs.length = Ps.length) (h : ∀ i, ∀ (h1 : i < fs.length) (h2 : i < Ps.length), ∀ t, fs[i] t = true ↔ Ps[i] t) :
    checks fs ((splitOn ',' s).map trim) = true ↔ Items Ps s := by
  rw [items_iff Ps hne, checks_each fs Ps _ hl h (fun x hx => not_mem_of_mem_splitOn hx)]

end Verif.Handlers
