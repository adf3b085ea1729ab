import Verif.Model.Karaoke
import Verif.Spec.Karaoke
import Verif.Lemmas.Override
import Verif.Lemmas.Formats
import Verif.Lemmas.SrtDoc
import Verif.Lemmas.LineCol
/-! Lemmas for C35, C64. -/
namespace Verif.Karaoke
open Verif Verif.Spec.Kara
open Verif.Spec.SrtDoc (White)

/-- The characters that are not white space. -/
abbrev solid (s : Str) : Str := s.filter (fun c => !isWs c)

theorem trim_nil_iff (s : Str) : trim s = [] ↔ ∀ c ∈ s, isWs c = true := by
  unfold trim trimEnd trimStart
  constructor
  · intro h
    have h1 : (s.dropWhile isWs).reverse.dropWhile isWs = [] := by simpa using h
    intro c hc
    have hall : ∀ c ∈ s.dropWhile isWs, isWs c = true := by
      intro c hc
      have : (s.dropWhile isWs).reverse.takeWhile isWs = (s.dropWhile isWs).reverse := by
        have := List.takeWhile_append_dropWhile (p := isWs) (l := (s.dropWhile isWs).reverse)
        rw [h1, List.append_nil] at this
        exact this
      have hc' : c ∈ (s.dropWhile isWs).reverse := by simpa using hc
      rw [← this] at hc'
      exact mem_takeWhile c hc'
    rw [← List.takeWhile_append_dropWhile (p := isWs) (l := s)] at hc
    rcases List.mem_append.1 hc with hc | hc
    · exact mem_takeWhile c hc
    · exact hall c hc
  · intro h
    rw [dropWhile_all h]
    rfl

theorem solid_nil {s : Str} (h : ∀ c ∈ s, isWs c = true) : solid s = [] := by
  unfold solid
  rw [List.filter_eq_nil_iff]
  intro c hc
  simp [h c hc]

/-! ## Pieces -/

theorem piece_empty (l : Str) {a b : Nat} (h : b ≤ a) : piece l a b = [] := by
  unfold piece
  rw [Nat.sub_eq_zero_of_le h]
  simp

theorem take_piece (l : Str) {a b : Nat} (h : a ≤ b) : l.take a ++ piece l a b = l.take b := by
  unfold piece
  obtain ⟨k, rfl⟩ := Nat.exists_eq_add_of_le h
  rw [Nat.add_sub_cancel_left, List.take_add]

theorem piece_snoc (l : Str) {a i : Nat} (h : a ≤ i) {c : Char} (hc : l[i]? = some c) :
    piece l a (i + 1) = piece l a i ++ [c] := by
  have h1 := take_piece l (Nat.le_succ_of_le h)
  have h2 := take_piece l h
  have h3 : l.take (i + 1) = l.take i ++ [c] := by
    rw [List.take_add_one, hc]; rfl
  have : l.take a ++ piece l a (i + 1) = l.take a ++ (piece l a i ++ [c]) := by
    rw [h1, ← List.append_assoc, h2, h3]
  exact List.append_cancel_left this

theorem piece_all (l : Str) {a : Nat} : piece l a l.length = l.drop a := by
  unfold piece
  apply List.take_of_length_le
  simp

theorem wsEnd_ws (l : Str) (i j : Nat) (h1 : i + 1 ≤ j) (h2 : j < wsEnd l i) {c : Char} (hc : l[j]? = some c) :
    isWs c = true := by
  unfold wsEnd at h2
  have hj : j = i + 1 + (j - (i + 1)) := by omega
  rw [hj, ← List.getElem?_drop] at hc
  have hlt : j - (i + 1) < ((l.drop (i + 1)).takeWhile isWs).length := by omega
  have : ((l.drop (i + 1)).takeWhile isWs)[j - (i + 1)]? = some c := by
    rw [← hc]
    conv => rhs; rw [← List.takeWhile_append_dropWhile (p := isWs) (l := l.drop (i + 1))]
    rw [List.getElem?_append_left hlt]
  exact mem_takeWhile c (List.mem_of_getElem? this)

theorem wsEnd_piece (l : Str) (i : Nat) {c : Char} (hc : l[i]? = some c) (hw : isWs c = true) :
    ∀ x ∈ piece l i (wsEnd l i), isWs x = true := by
  intro x hx
  unfold piece at hx
  obtain ⟨j, hj⟩ := List.mem_iff_getElem?.1 hx
  rw [List.getElem?_take] at hj
  split at hj
  · next hlt =>
    rw [List.getElem?_drop] at hj
    rcases Nat.eq_zero_or_pos j with rfl | hp
    · rw [Nat.add_zero, hc] at hj
      simp at hj
      rw [← hj]; exact hw
    · exact wsEnd_ws l i (i + j) (by omega) (by omega) hj
  · simp at hj

theorem wsEnd_le (l : Str) (i : Nat) (h : i < l.length) : wsEnd l i ≤ l.length := by
  unfold wsEnd
  have : ((l.drop (i + 1)).takeWhile isWs).length ≤ (l.drop (i + 1)).length :=
    (List.takeWhile_sublist _).length_le
  simp at this
  omega

/-! ## The letters are kept -/

structure Kept (l : Str) (i : Nat) (st : Nat × List Str) : Prop where
  eq : solid st.2.flatten ++ solid (piece l st.1 i) = solid (l.take i)
  ahead : ∀ j c, i ≤ j → j < st.1 → l[j]? = some c → isWs c = true

theorem splitsAt_ws {l : Str} {i : Nat} {c : Char} (hc : l[i]? = some c) (h : splitsAt l i = false) : isWs c = false := by
  unfold splitsAt at h
  rw [hc] at h
  simp only [Bool.or_eq_false_iff] at h
  exact h.1

theorem pushSyl_solid (l : Str) (a i : Nat) (out : List Str) :
    solid (pushSyl l a i out).flatten = solid out.flatten ++ solid (piece l a i) := by
  unfold pushSyl
  split
  · split
    · simp [solid]
    · next h =>
      have h : trim (piece l a i) = [] := by simpa using h
      rw [solid_nil ((trim_nil_iff _).1 h)]; simp
  · next h => rw [piece_empty l (by omega)]; simp [solid]

theorem sylStep_kept {l : Str} {i : Nat} {st : Nat × List Str} (hi : i < l.length) (h : Kept l i st) :
    Kept l (i + 1) (sylStep l i st) := by
  obtain ⟨c, hc⟩ : ∃ c, l[i]? = some c := ⟨l[i], List.getElem?_eq_getElem hi⟩
  have hts : l.take (i + 1) = l.take i ++ [c] := by rw [List.take_add_one, hc]; rfl
  unfold sylStep
  split
  · simp only
    split
    · next hw =>
      simp [hc] at hw
      refine ⟨?_, ?_⟩
      · simp only
        rw [piece_empty l (by omega : i + 1 ≤ wsEnd l i), hts]
        have e2 := pushSyl_solid l st.1 i st.2
        have e3 := solid_nil (wsEnd_piece l i hc hw.1)
        simp only [solid] at e2 e3
        simp only [solid, List.flatten_append, List.flatten_cons, List.flatten_nil, List.append_nil, List.filter_append, e3,
          List.filter_nil, e2]
        have := h.eq
        simp only [solid] at this
        rw [this]; simp [hw.1]
      · intro j d h1 h2 hd
        exact wsEnd_ws l i j h1 h2 hd
    · refine ⟨?_, fun j d h1 h2 _ => absurd h2 (by simp only; omega)⟩
      simp only
      rw [pushSyl_solid, h.eq, piece_snoc l (Nat.le_refl i) hc, piece_empty l (Nat.le_refl i), hts]
      simp [solid]
  · next hs =>
    have hnw := splitsAt_ws hc (by simpa using hs)
    have hle : st.1 ≤ i := by
      rcases Nat.lt_or_ge i st.1 with hlt | hge
      · have := h.ahead i c (Nat.le_refl _) hlt hc
        rw [hnw] at this; simp at this
      · exact hge
    refine ⟨?_, fun j d h1 h2 _ => absurd h2 (by omega)⟩
    rw [piece_snoc l hle hc, hts]
    have := h.eq
    simp only [solid, List.filter_append] at this ⊢
    rw [← List.append_assoc, this]

theorem sylLoop_kept (l : Str) (k : Nat) : ∀ (i : Nat) (st : Nat × List Str), i + k = l.length → Kept l i st →
    Kept l l.length (sylLoop l k i st) := by
  induction k with
  | zero => intro i st hi h; rw [Nat.add_zero] at hi; subst hi; exact h
  | succ k ih =>
    intro i st hi h
    exact ih (i + 1) _ (by omega) (sylStep_kept (by omega) h)

theorem syllables_solid (auto : Bool) (l : Str) : solid (syllables auto l).flatten = solid l := by
  unfold syllables
  split
  · simp
  · split
    · simp
    · simp only
      split
      · simp
      · have h := sylLoop_kept l l.length 0 (0, []) (by omega) ⟨by simp [piece_empty], by intro j c _ h; simp at h⟩
        have he := h.eq
        rw [List.take_of_length_le (Nat.le_refl _), piece_all] at he
        unfold sylRest
        split
        · split
          · simp only [List.flatten_append, List.flatten_cons, List.flatten_nil, List.append_nil]
            rw [← he]; simp [solid]
          · next hb =>
            have hb := (trim_nil_iff _).1 (by simpa using hb)
            rw [solid_nil hb] at he
            simpa using he
        · next hge =>
          have : l.drop (sylLoop l l.length 0 (0, [])).1 = [] := List.drop_eq_nil_of_le (by omega)
          rw [this] at he
          simpa [solid] using he

/-! ## The text is kept -/

structure Exact (l : Str) (i : Nat) (st : Nat × List Str) : Prop where
  eq : st.2.flatten ++ piece l st.1 i = l.take i
  le : st.1 ≤ i
  nonblank : st.1 < i → (∃ c ∈ piece l st.1 i, isWs c = false) ∨ (i = st.1 + 1 ∧ ∃ c, l[st.1]? = some c ∧ isWs c = true)
  solid : ∀ p ∈ st.2, trim p ≠ []

theorem vowel_not_ws {c : Char} (h : isVowel c = true) : isWs c = false := by
  unfold isVowel at h
  simp only [List.contains_eq_mem, decide_eq_true_eq] at h
  have : ∀ c ∈ "aeiouAEIOU".toList, isWs c = false := by decide
  exact this c h

theorem sylStep_exact {l : Str} (hs : ∀ i x y, l[i]? = some x → l[i + 1]? = some y → isWs x = true → isWs y = false)
    {i : Nat} {st : Nat × List Str} (hi : i < l.length) (h : Exact l i st) : Exact l (i + 1) (sylStep l i st) := by
  obtain ⟨c, hc⟩ : ∃ c, l[i]? = some c := ⟨l[i], List.getElem?_eq_getElem hi⟩
  have hts : l.take (i + 1) = l.take i ++ [c] := by rw [List.take_add_one, hc]; rfl
  unfold sylStep
  by_cases hsp : splitsAt l i = true
  · rw [if_pos hsp]
    -- the pending piece is not blank
    have hpend : st.1 < i → ∃ c ∈ piece l st.1 i, isWs c = false := by
      intro hlt
      rcases h.nonblank hlt with h1 | ⟨h1, d, h2, h3⟩
      · exact h1
      · exfalso
        subst h1
        have hcw := hs st.1 d c h2 hc h3
        unfold splitsAt at hsp
        rw [hc] at hsp
        simp only [hcw, Bool.false_or, Nat.add_sub_cancel, h2] at hsp
        unfold boundary at hsp
        simp only [Bool.and_eq_true] at hsp
        have := vowel_not_ws hsp.1.1
        rw [h3] at this; simp at this
    have hpush : pushSyl l st.1 i st.2 = (if st.1 < i then st.2 ++ [piece l st.1 i] else st.2) := by
      unfold pushSyl
      split
      · next hlt =>
        rw [if_pos]
        obtain ⟨x, hx, hxw⟩ := hpend hlt
        intro e
        have := (trim_nil_iff _).1 e x hx
        rw [hxw] at this; simp at this
      · rfl
    have hflat : (pushSyl l st.1 i st.2).flatten = l.take i := by
      rw [hpush]
      split
      · simp [h.eq]
      · next hge =>
        have := h.eq
        rw [piece_empty l (by omega)] at this
        simpa using this
    have hwe : ¬ (((l[i]?.map isWs).getD false && decide (wsEnd l i > i + 1)) = true) := by
      rw [hc]
      intro hh
      simp at hh
      have hlen : i + 1 < l.length := by
        have := wsEnd_le l i hi; omega
      have h2 : l[i + 1]? = some l[i + 1] := List.getElem?_eq_getElem hlen
      have h3 := wsEnd_ws l i (i + 1) (Nat.le_refl _) hh.2 h2
      rw [hs i c _ hc h2 hh.1] at h3; simp at h3
    simp only
    rw [if_neg hwe]
    refine ⟨?_, Nat.le_succ i, ?_, ?_⟩
    · simp only
      rw [hflat, piece_snoc l (Nat.le_refl i) hc, piece_empty l (Nat.le_refl i), hts]; rfl
    · intro _
      simp only
      by_cases hw : isWs c = true
      · exact .inr ⟨by simp, c, hc, hw⟩
      · refine .inl ⟨c, ?_, by simpa using hw⟩
        rw [piece_snoc l (Nat.le_refl i) hc]; simp
    · simp only
      rw [hpush]
      intro p hp
      split at hp
      · next hlt =>
        rcases List.mem_append.1 hp with hp | hp
        · exact h.solid p hp
        · simp at hp
          subst hp
          obtain ⟨x, hx, hxw⟩ := hpend hlt
          intro e
          have := (trim_nil_iff _).1 e x hx
          rw [hxw] at this; simp at this
      · exact h.solid p hp
  · rw [if_neg hsp]
    have hnw := splitsAt_ws hc (by simpa using hsp)
    refine ⟨?_, Nat.le_succ_of_le h.le, ?_, h.solid⟩
    · rw [piece_snoc l h.le hc, hts, ← List.append_assoc, h.eq]
    · intro _
      exact .inl ⟨c, by rw [piece_snoc l h.le hc]; simp, hnw⟩

theorem sylLoop_exact {l : Str} (hs : ∀ i x y, l[i]? = some x → l[i + 1]? = some y → isWs x = true → isWs y = false)
    (k : Nat) : ∀ (i : Nat) (st : Nat × List Str), i + k = l.length → Exact l i st →
    Exact l l.length (sylLoop l k i st) := by
  induction k with
  | zero => intro i st hi h; rw [Nat.add_zero] at hi; subst hi; exact h
  | succ k ih =>
    intro i st hi h
    exact ih (i + 1) _ (by omega) (sylStep_exact hs (by omega) h)

theorem single_index {l : Str} (h : SingleBlanks l) :
    ∀ i x y, l[i]? = some x → l[i + 1]? = some y → isWs x = true → isWs y = false := by
  intro i x y hx hy hw
  have hi : i + 1 < l.length := (List.getElem?_eq_some_iff.1 hy).1
  have e : l = l.take i ++ x :: y :: l.drop (i + 2) := by
    have h1 : l = l.take i ++ l.drop i := (List.take_append_drop i l).symm
    have h2 : l.drop i = x :: l.drop (i + 1) := by
      rw [List.drop_eq_getElem_cons (by omega)]
      rw [List.getElem?_eq_getElem (by omega)] at hx
      simp at hx
      rw [hx]
    have h3 : l.drop (i + 1) = y :: l.drop (i + 2) := by
      rw [List.drop_eq_getElem_cons hi]
      rw [List.getElem?_eq_getElem hi] at hy
      simp at hy
      rw [hy]
    rw [h3] at h2
    rw [h2] at h1
    exact h1
  have := h _ x y _ e
  cases hy2 : isWs y with
  | false => rfl
  | true => exact absurd ⟨(SrtDoc.white_iff x).1 hw, (SrtDoc.white_iff y).1 hy2⟩ this

/-- Texts without double blanks and without a blank at the end are cut without loss. -/
theorem syllables_exact (auto : Bool) {l : Str} (hs : SingleBlanks l) (hl : ∀ c, l.getLast? = some c → ¬ White c) :
    (syllables auto l).flatten = l ∧ (l ≠ [] → auto = true → ∀ p ∈ syllables auto l, trim p ≠ []) := by
  unfold syllables
  split
  · next ha => simp at ha; simp [ha]
  · split
    · next e => simp [e]
    · next hne =>
      simp only
      have h := sylLoop_exact (single_index hs) l.length 0 (0, []) (by omega)
        ⟨by simp [piece_empty], Nat.le_refl _, fun h => absurd h (by simp), by simp⟩
      have he := h.eq
      rw [List.take_of_length_le (Nat.le_refl _), piece_all] at he
      have hout : (sylRest l (sylLoop l l.length 0 (0, []))).flatten = l ∧
          ∀ p ∈ sylRest l (sylLoop l l.length 0 (0, [])), trim p ≠ [] := by
        unfold sylRest
        split
        · next hlt =>
          have hnb : trim (l.drop (sylLoop l l.length 0 (0, [])).1) ≠ [] := by
            intro e
            have hall := (trim_nil_iff _).1 e
            have hd : l.drop (sylLoop l l.length 0 (0, [])).1 ≠ [] := by simp; omega
            have hg : l.getLast? = (l.drop (sylLoop l l.length 0 (0, [])).1).getLast? := by
              rw [List.getLast?_drop, if_neg (by omega)]
            obtain ⟨x, hx⟩ := Option.isSome_iff_exists.1 (List.getLast?_isSome.2 hd)
            have h1 := hall x (List.mem_of_getLast? hx)
            exact hl x (by rw [hg, hx]) ((SrtDoc.white_iff x).1 h1)
          rw [if_pos hnb]
          refine ⟨by simp [he], ?_⟩
          intro p hp
          rcases List.mem_append.1 hp with hp | hp
          · exact h.solid p hp
          · simp at hp; subst hp; exact hnb
        · next hge =>
          have hd : l.drop (sylLoop l l.length 0 (0, [])).1 = [] := List.drop_eq_nil_of_le (by omega)
          rw [hd] at he
          exact ⟨by simpa using he, h.solid⟩
      split
      · next e => rw [e] at hout; exact absurd (by simpa using hout.1.symm) hne
      · exact ⟨hout.1, fun _ _ => hout.2⟩

/-! ## Writing -/

theorem tagText_eq (tag : Str) (d : Nat) : tagText tag d = block tag d := by
  simp [tagText, block, showNat]

/-- Every syllable that is not blank gets a tag. -/
theorem writeFrom_eq (tag : Str) (d : Nat) (l : List Str) (h : ∀ p ∈ l, trim p ≠ []) (b : Bool) :
    writeFrom tag d b l = (l.map (block tag d ++ ·)).flatten := by
  induction l generalizing b with
  | nil => rfl
  | cons s l ih =>
    have h1 : trim s ≠ [] := h s (by simp)
    simp only [writeFrom, h1, ne_eq, not_false_eq_true, decide_true, Bool.or_true, if_true]
    rw [ih (fun p hp => h p (by simp [hp])), tagText_eq]
    simp

theorem stripped_prefix {a s t : Str} (ha : '{' ∉ a) (h : Spec.Fmt.Stripped s t) : Spec.Fmt.Stripped (a ++ s) (a ++ t) := by
  cases h with
  | plain _ h => exact .plain _ (by simp [ha, h])
  | unclosed x y hx hy =>
    rw [← List.append_assoc]
    exact .unclosed _ _ (by simp [ha, hx]) hy
  | block x y z z' hx hy hz =>
    have := Spec.Fmt.Stripped.block (a ++ x) y z z' (by simp [ha, hx]) hy hz
    simpa using this

theorem digits_no_brace (d : Nat) : ∀ c ∈ Nat.toDigits 10 d, c ≠ '{' ∧ c ≠ '}' ∧ c ≠ '\\' := by
  intro c hc
  have := showNat_digits d c hc
  have h2 := (Override.isDigit_iff c).1 this
  unfold Spec.Ovr.Digit at h2
  refine ⟨?_, ?_, ?_⟩ <;> (rintro rfl; revert h2; decide)

theorem stripped_block {tag s t : Str} (d : Nat) (ht : '}' ∉ tag) (h : Spec.Fmt.Stripped s t) :
    Spec.Fmt.Stripped (block tag d ++ s) t := by
  have := Spec.Fmt.Stripped.block [] ('\\' :: tag ++ Nat.toDigits 10 d) s t (by simp)
    (by simp [ht]; exact fun h => (digits_no_brace d _ h).2.1 rfl) h
  simpa [block] using this

/-- Taking the blocks out leaves the syllables. -/
theorem writeFrom_stripped (tag : Str) (d : Nat) (ht : '}' ∉ tag) (l : List Str) (h : ∀ p ∈ l, '{' ∉ p) (b : Bool) :
    Spec.Fmt.Stripped (writeFrom tag d b l) l.flatten := by
  induction l generalizing b with
  | nil => exact .plain _ (by simp [writeFrom])
  | cons s l ih =>
    have := stripped_prefix (h s (by simp)) (ih (fun p hp => h p (by simp [hp])) false)
    simp only [writeFrom, List.flatten_cons, List.append_assoc]
    split
    · rw [tagText_eq]; exact stripped_block d ht this
    · simpa using this

theorem kind_tag (k : Kind) : IsName k.tag := by
  cases k <;> simp [Kind.tag, IsName]

theorem isName_no_brace {n : Str} (h : IsName n) : '}' ∉ n ∧ '{' ∉ n := by
  rcases h with h | h | h | h <;> subst h <;> decide

theorem mem_syllables (auto : Bool) (l : Str) : ∀ p ∈ syllables auto l, ∀ c ∈ p, c ∈ l := by
  have hp : ∀ a b, ∀ c ∈ piece l a b, c ∈ l := fun a b c hc => List.mem_of_mem_drop (List.mem_of_mem_take hc)
  have hpush : ∀ a i out, (∀ p ∈ out, ∀ c ∈ p, c ∈ l) → ∀ p ∈ pushSyl l a i out, ∀ c ∈ p, c ∈ l := by
    intro a i out h p hpm
    unfold pushSyl at hpm
    split at hpm
    · split at hpm
      · rcases List.mem_append.1 hpm with hpm | hpm
        · exact h p hpm
        · simp at hpm; subst hpm; exact hp a i
      · exact h p hpm
    · exact h p hpm
  have hstep : ∀ i st, (∀ p ∈ st.2, ∀ c ∈ p, c ∈ l) → ∀ p ∈ (sylStep l i st).2, ∀ c ∈ p, c ∈ l := by
    intro i st h p hpm
    unfold sylStep at hpm
    split at hpm
    · simp only at hpm
      split at hpm
      · rcases List.mem_append.1 hpm with hpm | hpm
        · exact hpush _ _ _ h p hpm
        · simp at hpm; subst hpm; exact hp _ _
      · exact hpush _ _ _ h p hpm
    · exact h p hpm
  have hloop : ∀ k i st, (∀ p ∈ st.2, ∀ c ∈ p, c ∈ l) → ∀ p ∈ (sylLoop l k i st).2, ∀ c ∈ p, c ∈ l := by
    intro k
    induction k with
    | zero => intro i st h; exact h
    | succ k ih => intro i st h; exact ih _ _ (hstep i st h)
  have h0 := hloop l.length 0 (0, []) (by simp)
  unfold syllables
  split
  · simp
  · split
    · simp
    · simp only
      split
      · simp
      · intro p hpm
        unfold sylRest at hpm
        split at hpm
        · split at hpm
          · rcases List.mem_append.1 hpm with hpm | hpm
            · exact h0 p hpm
            · simp at hpm; subst hpm; exact fun c hc => List.mem_of_mem_drop hc
          · exact h0 p hpm
        · exact h0 p hpm

/-! ## Splitting -/

theorem segText_eq {d : Nat} {s : Str} (h : s ≠ []) : segText d s = block "k".toList d ++ s := by
  unfold segText; rw [if_neg h, tagText_eq]

/-- What `splitLoop` writes, when it does not panic. -/
theorem splitLoop_ok (d : Nat) (ps : List Nat) : ∀ (p q : Str) (r : Str), splitLoop (p ++ q) d (byteLen p) ps = .ok r →
    ∃ pieces : List Str, pieces.flatten = q ∧ (∀ x ∈ pieces, x ≠ []) ∧ r = (pieces.map (block "k".toList d ++ ·)).flatten := by
  induction ps with
  | nil =>
    intro p q r h
    unfold splitLoop at h
    split at h
    · next hlt =>
      rw [dropBytes_append] at h
      simp only [Outcome.ok.injEq] at h
      have hq : q ≠ [] := by rintro rfl; simp at hlt
      exact ⟨[q], by simp, by simpa using hq, by rw [← h, segText_eq hq]; simp⟩
    · next hge =>
      simp only [Outcome.ok.injEq] at h
      have hq : q = [] := by
        by_cases hq : q = []
        · exact hq
        · have := LineCol.byteLen_pos hq; simp at hge; omega
      exact ⟨[], by simp [hq], by simp, by rw [← h]; simp⟩
  | cons pos ps ih =>
    intro p q r h
    unfold splitLoop at h
    split at h
    · exact ih p q r h
    · next hpos =>
      cases hs : sliceBytes (p ++ q) (byteLen p) pos with
      | none => rw [hs] at h; simp at h
      | some seg =>
        rw [hs] at h
        simp only at h
        obtain ⟨p', q', e1, e2, e3⟩ := sliceBytes_iff.1 hs
        -- the prefix is the same
        have hpp : p' = p ∧ q = seg ++ q' := by
          have h1 : dropBytes (p ++ q) (byteLen p) = some q := dropBytes_append p q
          have h2 : dropBytes (p ++ q) (byteLen p) = some (seg ++ q') := by
            rw [← e2, e1, List.append_assoc]; exact dropBytes_append _ _
          rw [h1] at h2
          simp at h2
          refine ⟨?_, h2⟩
          rw [h2, ← List.append_assoc] at e1
          have := List.append_cancel_right (List.append_cancel_right e1)
          exact this.symm
        obtain ⟨rfl, rfl⟩ := hpp
        have hseg : seg ≠ [] := by rintro rfl; simp at e3; omega
        cases hr : splitLoop (p' ++ (seg ++ q')) d pos ps with
        | err => rw [hr] at h; simp at h
        | panic => rw [hr] at h; simp at h
        | ok r' =>
          rw [hr] at h
          simp only [Outcome.ok.injEq] at h
          have hr' : splitLoop ((p' ++ seg) ++ q') d (byteLen (p' ++ seg)) ps = .ok r' := by
            rw [List.append_assoc, byteLen_append, ← e3]; exact hr
          obtain ⟨pieces, g1, g2, g3⟩ := ih _ _ _ hr'
          refine ⟨seg :: pieces, by simp [g1], ?_, ?_⟩
          · intro x hx
            rcases List.mem_cons.1 hx with rfl | hx
            · exact hseg
            · exact g2 x hx
          · rw [← h, g3, segText_eq hseg]; simp

/-- Cutting at given places. -/
theorem splitLoop_cut (d : Nat) (pieces : List Str) : ∀ (p : Str), (∀ x ∈ pieces, x ≠ []) →
    splitLoop (p ++ pieces.flatten) d (byteLen p)
      ((List.range (pieces.length - 1)).map (fun i => byteLen p + byteLen (pieces.take (i + 1)).flatten)) =
      .ok ((pieces.map (block "k".toList d ++ ·)).flatten) := by
  induction pieces with
  | nil => intro p _; simp [splitLoop]
  | cons a l ih =>
    intro p h
    have ha : a ≠ [] := h a (by simp)
    cases l with
    | nil =>
      simp only [List.length_singleton, Nat.sub_self, List.range_zero, List.map_nil, splitLoop]
      have := LineCol.byteLen_pos ha
      rw [if_pos (by simp; omega)]
      simp only [List.flatten_cons, List.flatten_nil, List.append_nil, dropBytes_append, segText_eq ha]
      simp
    | cons b l =>
      have ih := ih (p ++ a) (fun x hx => h x (by simp [hx]))
      have hpa := LineCol.byteLen_pos ha
      have hb : b ≠ [] := h b (by simp)
      have hpb := LineCol.byteLen_pos hb
      simp only [List.length_cons, Nat.add_sub_cancel] at ih ⊢
      rw [List.range_succ_eq_map, List.map_cons, List.map_map]
      unfold splitLoop
      have e0 : byteLen p + byteLen (List.take (0 + 1) (a :: b :: l)).flatten = byteLen p + byteLen a := by simp
      rw [e0, if_neg (by simp; omega)]
      have hsl : sliceBytes (p ++ (a :: b :: l).flatten) (byteLen p) (byteLen p + byteLen a) = some a := by
        have := sliceBytes_append p a (b :: l).flatten
        simpa using this
      rw [hsl]
      simp only
      have em : List.map ((fun i => byteLen p + byteLen (List.take (i + 1) (a :: b :: l)).flatten) ∘ Nat.succ) (List.range l.length) =
          List.map (fun i => byteLen (p ++ a) + byteLen (List.take (i + 1) (b :: l)).flatten) (List.range l.length) := by
        apply List.map_congr_left
        intro i _
        simp [Nat.add_assoc]
      have et : p ++ (a :: b :: l).flatten = (p ++ a) ++ (b :: l).flatten := by simp
      rw [em, et, ← byteLen_append, ih, segText_eq ha]
      simp

/-! ## Applying a template -/

theorem wordsAux_word (cur w rest : Str) (h : ∀ c ∈ w, isWs c = false) :
    wordsAux cur (w ++ rest) = wordsAux (w.reverse ++ cur) rest := by
  induction w generalizing cur with
  | nil => rfl
  | cons c w ih =>
    have hc := h c (by simp)
    have : wordsAux cur (c :: (w ++ rest)) = wordsAux (c :: cur) (w ++ rest) := by
      cases cur <;> simp [wordsAux, hc]
    rw [List.cons_append, this, ih _ (fun x hx => h x (by simp [hx]))]
    simp

theorem wordsAux_ws (w rest : Str) (h : ∀ c ∈ w, isWs c = true) : wordsAux [] (w ++ rest) = wordsAux [] rest := by
  induction w with
  | nil => rfl
  | cons c w ih =>
    have hc := h c (by simp)
    have : wordsAux [] (c :: (w ++ rest)) = wordsAux [] (w ++ rest) := by simp [wordsAux, hc]
    rw [List.cons_append, this, ih (fun x hx => h x (by simp [hx]))]

theorem words_eq {s : Str} {l : List Str} (h : Words s l) : words s = l := by
  unfold words
  induction h with
  | nil w h =>
    have := wordsAux_ws w [] (fun c hc => (SrtDoc.white_iff c).2 (h c hc))
    rw [List.append_nil] at this
    rw [this]; rfl
  | cons w word rest l hw hne hword hr h ih =>
    have hww : ∀ c ∈ word, isWs c = false := fun c hc => SrtDoc.not_white (hword c hc)
    rw [List.append_assoc, wordsAux_ws w _ (fun c hc => (SrtDoc.white_iff c).2 (hw c hc)), wordsAux_word _ _ _ hww,
      List.append_nil]
    cases rest with
    | nil =>
      rw [show wordsAux [] [] = [] from rfl] at ih
      have hrev : word.reverse ≠ [] := by simpa using hne
      cases hc : word.reverse with
      | nil => exact absurd hc hrev
      | cons a b =>
        simp only [wordsAux]
        rw [← ih, ← hc, List.reverse_reverse]
    | cons c rest =>
      have hc := (SrtDoc.white_iff c).2 (hr c rfl)
      have e2 : wordsAux [] (c :: rest) = wordsAux [] rest := by simp [wordsAux, hc]
      rw [e2] at ih
      have hrev : word.reverse ≠ [] := by simpa using hne
      cases hcw : word.reverse with
      | nil => exact absurd hcw hrev
      | cons a b =>
        simp only [wordsAux, hc, if_true]
        rw [ih, ← hcw, List.reverse_reverse]

theorem skipBlock_inside {d : Nat} {b : Str} (h : Inside d b) (s : Str) : skipBlock d (b ++ '}' :: s) = s := by
  induction h with
  | done => simp [skipBlock]
  | opn d s h ih => simp only [List.cons_append, skipBlock, if_true]; exact ih
  | cls d s hd h ih =>
    simp only [List.cons_append, skipBlock, show ¬ ('}' = '{') by decide, if_false, if_true]
    rw [if_neg (by omega), Nat.add_sub_cancel]; exact ih
  | other d c s h1 h2 h ih => simp only [List.cons_append, skipBlock, h1, h2, if_false]; exact ih

theorem cleanText_eq {s t : Str} (h : Outside s t) : ∀ k, s.length ≤ k → cleanText k s = t := by
  induction h with
  | nil => intro k _; cases k <;> rfl
  | char c s t hc h ih =>
    intro k hl
    cases k with
    | zero => simp at hl
    | succ k => simp only [cleanText, hc, if_false]; rw [ih k (by simpa using hl)]
  | block b s t hb h ih =>
    intro k hl
    cases k with
    | zero => simp at hl
    | succ k =>
      simp only [List.cons_append, cleanText, if_true]
      rw [skipBlock_inside hb]
      exact ih k (by simp at hl; omega)

theorem applyFrom_succ (tag : Str) (dur : Nat → Nat) (l : List Str) : ∀ i,
    applyFrom tag dur (i + 1) l = ((l.mapIdx fun j w => ' ' :: block tag (dur (i + 1 + j)) ++ w)).flatten := by
  induction l with
  | nil => intro i; rfl
  | cons s l ih =>
    intro i
    simp only [applyFrom, List.mapIdx_cons, List.flatten_cons, tagText_eq]
    rw [if_pos (by omega), ih (i + 1)]
    simp only [Nat.add_zero, List.cons_append, List.nil_append, List.append_assoc]
    congr 5
    funext j w
    rw [show i + 1 + 1 + j = i + 1 + (j + 1) by omega]

theorem intercalate_cons (sep a : Str) (l : List Str) :
    sep.intercalate (a :: l) = a ++ (l.map (sep ++ ·)).flatten := by
  induction l generalizing a with
  | nil => simp [List.intercalate]
  | cons b l ih =>
    have := ih b
    simp only [List.intercalate, List.intersperse] at this ⊢
    simp [this]

theorem applyFrom_eq (tag : Str) (dur : Nat → Nat) (l : List Str) :
    applyFrom tag dur 0 l = [' '].intercalate (l.mapIdx fun i w => block tag (dur i) ++ w) := by
  cases l with
  | nil => rfl
  | cons s l =>
    rw [List.mapIdx_cons, intercalate_cons]
    simp only [applyFrom, tagText_eq]
    rw [applyFrom_succ]
    simp only [Nat.lt_irrefl, gt_iff_lt, if_false, List.nil_append, List.append_assoc]
    congr 3
    apply List.ext_getElem?
    intro i
    simp only [List.getElem?_mapIdx, List.getElem?_map, Option.map_map]
    cases l[i]? with
    | none => rfl
    | some w => simp [Nat.add_comm]

theorem intercalate_stripped (tag : Str) (dur : Nat → Nat) (ht : '}' ∉ tag) (l : List Str) (h : ∀ w ∈ l, '{' ∉ w) :
    Spec.Fmt.Stripped ([' '].intercalate (l.mapIdx fun i w => block tag (dur i) ++ w)) ([' '].intercalate l) := by
  induction l generalizing dur with
  | nil => exact .plain _ (by simp [List.intercalate])
  | cons s l ih =>
    rw [List.mapIdx_cons]
    have ih := ih (fun i => dur (i + 1)) (fun w hw => h w (by simp [hw]))
    cases l with
    | nil =>
      have := stripped_block (dur 0) ht (Spec.Fmt.Stripped.plain s (h s (by simp)))
      simpa [List.intercalate] using this
    | cons b l =>
      have e1 : ∀ (x y : Str) (m : List Str), [' '].intercalate (x :: y :: m) = x ++ ' ' :: [' '].intercalate (y :: m) := by
        intro x y m; simp [List.intercalate, List.intersperse]
      rw [List.mapIdx_cons] at ih ⊢
      rw [e1, e1, List.append_assoc]
      refine stripped_block _ ht (stripped_prefix (h s (by simp)) ?_)
      exact stripped_prefix (a := [' ']) (by decide) ih

/-! ## Adjusting -/

theorem takeBlock_inside {d : Nat} {b : Str} (h : Inside d b) (s : Str) : takeBlock d (b ++ '}' :: s) = (b, s) := by
  induction h with
  | done => simp [takeBlock]
  | opn d s h ih => simp only [List.cons_append, takeBlock, if_true, ih]
  | cls d s hd h ih =>
    simp only [List.cons_append, takeBlock, show ¬ ('}' = '{') by decide, if_false, if_true]
    rw [if_neg (by omega), Nat.add_sub_cancel, ih]
  | other d c s h1 h2 h ih => simp only [List.cons_append, takeBlock, h1, h2, if_false, ih]

/-- The braces of a text. -/
def braces (s : Str) : Str := s.filter (fun c => c = '{' || c = '}')

theorem inside_braces (s : Str) : ∀ d, Inside d s ↔ Inside d (braces s) := by
  unfold braces
  induction s with
  | nil => intro d; exact Iff.rfl
  | cons c s ih =>
    intro d
    rw [List.filter_cons]
    by_cases h1 : c = '{'
    · subst h1
      simp only [decide_true, Bool.true_or, if_true]
      constructor
      · intro h
        cases h with
        | opn _ _ h => exact .opn _ _ ((ih _).1 h)
        | other _ _ _ h1 => exact absurd rfl h1
      · intro h
        cases h with
        | opn _ _ h => exact .opn _ _ ((ih _).2 h)
        | other _ _ _ h1 => exact absurd rfl h1
    · by_cases h2 : c = '}'
      · subst h2
        simp only [decide_true, Bool.or_true, if_true]
        constructor
        · intro h
          cases h with
          | cls _ _ hd h => exact .cls _ _ hd ((ih _).1 h)
          | other _ _ _ _ h1 => exact absurd rfl h1
        · intro h
          cases h with
          | cls _ _ hd h => exact .cls _ _ hd ((ih _).2 h)
          | other _ _ _ _ h1 => exact absurd rfl h1
      · simp only [h1, h2, decide_false, Bool.or_self, Bool.false_eq_true, if_false]
        constructor
        · intro h
          cases h with
          | opn => exact absurd rfl h1
          | cls => exact absurd rfl h2
          | other _ _ _ _ _ h => exact (ih _).1 h
        · intro h
          exact .other _ _ _ h1 h2 ((ih _).2 h)

theorem braces_replaceAux (pat rep : Str) (hp : pat ≠ []) (hpb : braces pat = []) (hrb : braces rep = []) (s : Str) :
    braces (replaceAll pat rep s) = braces s := by
  generalize hn : s.length = n
  induction n using Nat.strongRecOn generalizing s with
  | _ n ih =>
    cases e : splitOnceStr pat s with
    | none => rw [replaceAll_lacks (splitOnceStr_none.1 e)]
    | some p =>
      obtain ⟨a, b⟩ := p
      rw [replaceAll_split hp e]
      have es := (splitOnceStr_some e).1
      have hb : b.length < n := by
        rw [← hn, es]
        have := List.length_pos_iff.2 hp
        simp; omega
      have := ih _ hb b rfl
      unfold braces at this hpb hrb ⊢
      rw [es]
      simp only [List.filter_append, this, hrb, hpb]

theorem braces_tag {n : Str} (hn : Spec.Ovr.Name n) (d : Nat) : braces ('\\' :: n ++ showNat d) = [] := by
  unfold braces
  rw [List.filter_eq_nil_iff]
  intro c hc
  simp only [List.cons_append, List.mem_cons, List.mem_append] at hc
  rcases hc with rfl | hc | hc
  · decide
  · obtain ⟨x, t, rfl, hx, ht⟩ := hn
    have hc : Spec.Ovr.Letter c ∨ Spec.Ovr.Digit c := by
      rcases List.mem_cons.1 hc with rfl | hc
      · exact hx
      · exact .inl (ht c hc)
    unfold Spec.Ovr.Letter Spec.Ovr.Digit at hc
    have h1 : c ≠ '{' := by rintro rfl; revert hc; decide
    have h2 : c ≠ '}' := by rintro rfl; revert hc; decide
    simp [h1, h2]
  · have := digits_no_brace d c hc
    simp [this.1, this.2.1]

theorem adjustTags_braces (a : Adjust) (ts : List Override.Tag) : ∀ (idx : Nat) (r r' : Str) (idx' : Nat),
    (∀ t ∈ ts, Spec.Ovr.Name t.name) → adjustTags a ts idx r = .ok (r', idx') → braces r' = braces r := by
  induction ts with
  | nil => intro idx r r' idx' _ h; simp [adjustTags] at h; rw [h.1]
  | cons t ts ih =>
    intro idx r r' idx' hn h
    unfold adjustTags at h
    split at h
    · simp only at h
      cases hd : newDuration a ((parseU32 (trim t.args)).getD 0) idx with
      | err => rw [hd] at h; simp at h
      | panic => rw [hd] at h; simp at h
      | ok p =>
        obtain ⟨d, i⟩ := p
        rw [hd] at h
        simp only at h
        rw [ih _ _ _ _ (fun t ht => hn t (by simp [ht])) h]
        have hname := hn t (by simp)
        exact braces_replaceAux _ _ (by simp) (braces_tag hname _) (braces_tag hname _) _
    · exact ih _ _ _ _ (fun t ht => hn t (by simp [ht])) h

theorem before_ok {t : Str} {r : Outcome Str} {o : Str} (h : before t r = .ok o) : ∃ o', r = .ok o' ∧ o = t ++ o' := by
  cases r with
  | ok o' => simp [before] at h; exact ⟨o', rfl, h.symm⟩
  | err => simp [before] at h
  | panic => simp [before] at h

/-- The text outside the blocks does not change. -/
theorem adjustLoop_outside (a : Adjust) {s t : Str} (h : Outside s t) : ∀ (k idx : Nat) (o : Str), s.length ≤ k →
    adjustLoop a k idx s = .ok o → Outside o t := by
  induction h with
  | nil =>
    intro k idx o _ h
    cases k <;> simp [adjustLoop] at h <;> subst h <;> exact .nil
  | char c s t hc h ih =>
    intro k idx o hl ho
    cases k with
    | zero => simp at hl
    | succ k =>
      simp only [adjustLoop, hc, if_false] at ho
      obtain ⟨o', e1, rfl⟩ := before_ok ho
      exact .char _ _ _ hc (ih _ _ _ (by simpa using hl) e1)
  | block b s t hb h ih =>
    intro k idx o hl ho
    cases k with
    | zero => simp at hl
    | succ k =>
      simp only [List.cons_append, adjustLoop, if_true, takeBlock_inside hb] at ho
      cases hp : Override.parseBlock b 0 with
      | err => rw [hp] at ho; simp at ho
      | panic => rw [hp] at ho; simp at ho
      | ok out =>
        rw [hp] at ho
        simp only at ho
        cases ha : adjustTags a out.tags.reverse idx b with
        | err => rw [ha] at ho; simp at ho
        | panic => rw [ha] at ho; simp at ho
        | ok p =>
          obtain ⟨b', idx'⟩ := p
          rw [ha] at ho
          simp only at ho
          obtain ⟨o', e1, rfl⟩ := before_ok ho
          have hnames : ∀ t ∈ out.tags.reverse, Spec.Ovr.Name t.name := by
            intro t ht
            obtain ⟨_, _, _, _, hn, _⟩ := (Override.blockLoop_reads _ _ _ _ (Nat.le_refl _) hp).located t (by simpa using ht)
            exact hn
          have hbr := adjustTags_braces a _ _ _ _ _ hnames ha
          have hb' : Inside 1 b' := by
            rw [inside_braces, hbr, ← inside_braces]; exact hb
          have := Outside.block b' o' t hb' (ih _ _ _ (by simp at hl; omega) e1)
          simpa using this

/-! A line of timing blocks. -/

theorem name_letters {n : Str} (h : IsName n) : ∃ t, n = 'k' :: t ∧ (∀ c ∈ n, Spec.Ovr.Letter c) := by
  rcases h with h | h | h | h <;> subst h
  · exact ⟨[], rfl, by unfold Spec.Ovr.Letter; decide⟩
  · exact ⟨['f'], rfl, by unfold Spec.Ovr.Letter; decide⟩
  · exact ⟨['o'], rfl, by unfold Spec.Ovr.Letter; decide⟩
  · exact ⟨['t'], rfl, by unfold Spec.Ovr.Letter; decide⟩

theorem scanName_letters (x rest : Str) (hx : ∀ c ∈ x, Spec.Ovr.Letter c) (hr : ∀ c, rest.head? = some c → ¬ Spec.Ovr.Letter c) :
    ∀ acc, acc.head? = some 'k' → Override.scanName acc (x ++ rest) = (acc ++ x, rest) := by
  induction x with
  | nil =>
    intro acc ha
    cases rest with
    | nil => simp [Override.scanName]
    | cons c s =>
      have hne : acc ≠ [] := by rintro rfl; simp at ha
      have hal : Override.isAlpha c = false := by
        cases h : Override.isAlpha c with
        | false => rfl
        | true => exact absurd ((Override.isAlpha_iff c).1 h) (hr c rfl)
      unfold Override.scanName
      simp [hne, hal]
  | cons c x ih =>
    intro acc ha
    have hne : acc ≠ [] := by rintro rfl; simp at ha
    have hal := (Override.isAlpha_iff c).2 (hx c (by simp))
    rw [List.cons_append]
    unfold Override.scanName
    have hk : ∀ y : Str, (acc ++ y).head? = some 'k' := by
      intro y; cases acc with
      | nil => exact absurd rfl hne
      | cons a b => simpa using ha
    have h1 : acc ++ [c] ≠ "r".toList := by
      intro e; have := hk [c]; rw [e] at this; revert this; decide
    have h2 : acc ++ [c] ≠ "fn".toList := by
      intro e; have := hk [c]; rw [e] at this; revert this; decide
    simp only [hne, decide_false, Bool.false_and, Bool.false_eq_true, if_false, hal, if_true, h1, h2, or_self]
    rw [ih (fun c hc => hx c (by simp [hc])) _ (hk [c])]
    simp

/-- A timing block has one tag. -/
theorem parseBlock_time {n : Str} (h : IsName n) (d : Nat) :
    ∃ o, Override.parseBlock ('\\' :: n ++ showNat d) 0 = .ok o ∧ o.tags = [⟨n, showNat d, 0⟩] := by
  obtain ⟨t, rfl, hl⟩ := name_letters h
  have hdig : ∀ c, (showNat d).head? = some c → ¬ Spec.Ovr.Letter c := by
    intro c hc hl
    have := (Override.isDigit_iff c).1 (showNat_digits d c (List.mem_of_head? hc))
    unfold Spec.Ovr.Digit at this
    unfold Spec.Ovr.Letter at hl
    omega
  have hsn : Override.scanName [] ('k' :: t ++ showNat d) = ('k' :: t, showNat d) := by
    have hk : Override.scanName [] ('k' :: (t ++ showNat d)) = Override.scanName ['k'] (t ++ showNat d) := by
      simp [Override.scanName, show Override.isDig 'k' = false by decide, show Override.isAlpha 'k' = true by decide]
    rw [List.cons_append, hk, scanName_letters t _ (fun c hc => hl c (by simp [hc])) hdig _ rfl]
    rfl
  have hnb : ∀ c ∈ showNat d, c ≠ '\\' := fun c hc => (digits_no_brace d c hc).2.2
  have hsa : Override.scanArgs ('k' :: t) (showNat d) = (showNat d, []) := by
    have h1 : (showNat d).takeWhile (· ≠ '\\') = showNat d := takeWhile_all (fun c hc => by simpa using hnb c hc)
    have h2 : (showNat d).dropWhile (· ≠ '\\') = [] := dropWhile_all (fun c hc => by simpa using hnb c hc)
    unfold Override.scanArgs
    split
    · next heq =>
      exact absurd (show '(' ∈ showNat d by rw [heq]; simp) (fun h => absurd (showNat_digits d _ h) (by decide))
    · rw [h1, h2]
  have htrim : trim ('k' :: t) ≠ [] := by
    rw [Ne, trim_nil_iff]
    intro h
    have := h 'k' (by simp)
    revert this; decide
  refine ⟨⟨[⟨'k' :: t, showNat d, 0⟩], []⟩, ?_, rfl⟩
  unfold Override.parseBlock
  rw [List.cons_append, List.length_cons]
  unfold Override.blockLoop
  simp only [if_true]
  rw [hsn]
  simp only [ne_eq, List.cons_ne_nil, not_false_eq_true, if_true, hsa, htrim, if_false]
  simp [Override.blockLoop, Override.addTag]

/-- How one timing block is adjusted. -/
theorem adjustTags_time (a : Adjust) {n : Str} (h : IsName n) {d : Nat} (hd : d < 2 ^ 32) (idx : Nat) {e idx' : Nat}
    (hnew : newDuration a d idx = .ok (e, idx')) :
    adjustTags a [⟨n, showNat d, 0⟩] idx ('\\' :: n ++ showNat d) = .ok ('\\' :: n ++ showNat e, idx') := by
  obtain ⟨t, rfl, hl⟩ := name_letters h
  have hp : parseU32 (trim (showNat d)) = some d := by
    rw [(SrtDoc.showNat_line d).1]
    exact parseU32_showNat (by unfold u32Bound; omega)
  unfold adjustTags
  simp only [List.head?_cons, if_true, hp, Option.getD_some, hnew]
  have := replaceAll_prefix (pat := '\\' :: 'k' :: t ++ showNat d) ('\\' :: 'k' :: t ++ showNat e) (by simp) []
  rw [List.append_nil, replaceAll_nil, List.append_nil] at this
  rw [this]
  rfl

theorem inside_time {n : Str} (h : IsName n) (d : Nat) : Inside 1 ('\\' :: n ++ showNat d) := by
  have hn : Spec.Ovr.Name n := by
    obtain ⟨t, rfl, hl⟩ := name_letters h
    exact ⟨'k', t, rfl, .inl (hl _ (by simp)), fun x hx => hl x (by simp [hx])⟩
  rw [inside_braces, braces_tag hn]
  exact .done

/-- One timing block of a line. -/
theorem adjustLoop_time (a : Adjust) {n : Str} (h : IsName n) {d : Nat} (hd : d < 2 ^ 32) (k idx : Nat) {e idx' : Nat}
    (hnew : newDuration a d idx = .ok (e, idx')) (s : Str) :
    adjustLoop a (k + 1) idx (block n d ++ s) = before (block n e) (adjustLoop a k idx' s) := by
  have e1 : block n d ++ s = '{' :: (('\\' :: n ++ showNat d) ++ '}' :: s) := by simp [block, showNat]
  rw [e1]
  obtain ⟨o, ho, ht⟩ := parseBlock_time h d
  simp only [adjustLoop, if_true, takeBlock_inside (inside_time h d), ho, ht, List.reverse_cons, List.reverse_nil,
    List.nil_append, adjustTags_time a h hd idx hnew]
  congr 1

/-- A whole line whose adjustment does not depend on the place. -/
theorem adjustLoop_line (a : Adjust) (f : Nat → Nat) (ps : List Piece)
    (hf : ∀ n d idx, Piece.time n d ∈ ps → newDuration a d idx = .ok (f d, idx)) (h : Line ps) : ∀ k idx, (line ps).length ≤ k → adjustLoop a k idx (line ps) = .ok (line (retime f ps)) := by
  induction ps with
  | nil => intro k idx _; cases k <;> rfl
  | cons p ps ih =>
    intro k idx hl
    have ih := ih (fun n d idx hm => hf n d idx (by simp [hm])) (fun q hq => h q (by simp [hq]))
    cases p with
    | ch c =>
      have hc : c ≠ '{' := h (.ch c) (by simp)
      have e : line (.ch c :: ps) = c :: line ps := rfl
      rw [e] at hl ⊢
      cases k with
      | zero => simp at hl
      | succ k =>
        simp only [adjustLoop, hc, if_false]
        rw [ih k idx (by simpa using hl)]
        rfl
    | time n d =>
      have hn : IsName n ∧ d < 2 ^ 32 := h (.time n d) (by simp)
      have e : line (.time n d :: ps) = block n d ++ line ps := rfl
      rw [e] at hl ⊢
      cases k with
      | zero => simp [block] at hl
      | succ k =>
        rw [adjustLoop_time a hn.1 hn.2 k idx (hf n d idx (by simp)), ih k idx (by simp [block] at hl; omega)]
        rfl

/-- A whole line with given durations. -/
theorem adjustLoop_custom (ts : List Nat) (ps : List Piece) (h : Line ps) : ∀ k idx, (line ps).length ≤ k →
    adjustLoop (.custom ts) k idx (line ps) = .ok (line (retimeFrom (ts.drop idx) ps)) := by
  induction ps with
  | nil => intro k idx _; cases k <;> simp [line, adjustLoop, retimeFrom]
  | cons p ps ih =>
    intro k idx hl
    have ih := ih (fun q hq => h q (by simp [hq]))
    cases p with
    | ch c =>
      have hc : c ≠ '{' := h (.ch c) (by simp)
      have e : line (.ch c :: ps) = c :: line ps := rfl
      rw [e] at hl ⊢
      cases k with
      | zero => simp at hl
      | succ k =>
        simp only [adjustLoop, hc, if_false]
        rw [ih k idx (by simpa using hl)]
        cases hd : ts.drop idx <;> simp [before, retimeFrom, line]
    | time n d =>
      have hn : IsName n ∧ d < 2 ^ 32 := h (.time n d) (by simp)
      have e : line (.time n d :: ps) = block n d ++ line ps := rfl
      rw [e] at hl ⊢
      cases k with
      | zero => simp [block] at hl
      | succ k =>
        have hlen : (line ps).length ≤ k := by simp [block] at hl; omega
        cases hi : ts[idx]? with
        | none =>
          have hd : ts.drop idx = [] := List.drop_eq_nil_of_le (List.getElem?_eq_none_iff.1 hi)
          have hnew : newDuration (.custom ts) d idx = .ok (d, idx) := by simp [newDuration, hi]
          rw [adjustLoop_time _ hn.1 hn.2 k idx hnew, ih k idx hlen, hd]
          rfl
        | some t =>
          obtain ⟨hlt, hg⟩ := List.getElem?_eq_some_iff.1 hi
          have hd : ts.drop idx = t :: ts.drop (idx + 1) := by rw [List.drop_eq_getElem_cons hlt, hg]
          have hnew : newDuration (.custom ts) d idx = .ok (t, idx + 1) := by simp [newDuration, hi]
          rw [adjustLoop_time _ hn.1 hn.2 k idx hnew, ih k (idx + 1) hlen, hd]
          rfl

end Verif.Karaoke
