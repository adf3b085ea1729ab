import Verif.Lemmas.Report
import Verif.Lemmas.Color
import Verif.Lemmas.Formats
/-! # Lemmas about the edits of event lines: how long the new lines are, and which marks they have -/
namespace Verif.Report
open Verif Verif.Doc Verif.Pos Verif.Spec.Report Verif.EventCmd

/-- A part of a text. -/
def Part (x s : Str) : Prop := ∃ a b, s = a ++ x ++ b

theorem Part.refl (s : Str) : Part s s := ⟨[], [], by simp⟩
theorem Part.trans {x y z : Str} (h : Part x y) (g : Part y z) : Part x z := by
  obtain ⟨a, b, rfl⟩ := h
  obtain ⟨c, d, rfl⟩ := g
  exact ⟨c ++ a, b ++ d, by simp only [List.append_assoc]⟩
theorem Part.len {x y : Str} (h : Part x y) : byteLen x ≤ byteLen y := by
  obtain ⟨a, b, rfl⟩ := h
  simp only [byteLen_append]; omega
theorem Part.left (a b : Str) : Part a (a ++ b) := ⟨[], b, by simp⟩
theorem Part.right (a b : Str) : Part b (a ++ b) := ⟨a, [], by simp⟩

theorem part_trim (s : Str) : Part (trim s) s := by
  have h1 : Part (trimStart s) s := ⟨s.takeWhile isWs, [], by simp [trimStart]⟩
  have h2 : Part (trim s) (trimStart s) := by
    refine ⟨[], ((trimStart s).reverse.takeWhile isWs).reverse, ?_⟩
    rw [List.nil_append, trim, trimEnd, ← List.reverse_append, List.takeWhile_append_dropWhile, List.reverse_reverse]
  exact h2.trans h1

theorem splitn_two {n : Nat} {s a b : Str} {l : List Str} (h : splitn ',' (n + 2) s = a :: b :: l) :
    ∃ r, s = a ++ ',' :: r ∧ splitn ',' (n + 1) r = b :: l := by
  rw [splitn] at h
  cases hs : splitOnce ',' s with
  | none => rw [hs] at h; simp at h
  | some p =>
    rw [hs] at h
    injection h with h1 h2
    subst h1
    exact ⟨p.2, (splitOnce_some hs).1, h2⟩

/-- What the effect and the text are. -/
theorem effectText_parts {s e t : Str} (h : effectText s = .ok (e, t)) :
    Part e s ∧ Part t s ∧ byteLen e + byteLen t ≤ byteLen s := by
  unfold effectText at h
  split at h
  · split at h
    · next a b h1 h2 =>
      injection h with h
      injection h with h3 h4
      subst h3 h4
      obtain ⟨x, g1, g2⟩ := takeBytes_iff.1 h1
      obtain ⟨y, g3, g4⟩ := dropBytes_iff.1 h2
      have p1 : Part a s := ⟨[], x, by simpa using g1⟩
      have p2 : Part b s := ⟨y, [], by simpa using g3⟩
      refine ⟨(part_trim a).trans p1, (part_trim b).trans p2, ?_⟩
      have l1 := (part_trim a).len
      have l2 := (part_trim b).len
      have : byteLen s = byteLen y + byteLen b := by rw [g3, byteLen_append]
      omega
    · simp at h
  · injection h with h
    injection h with h3 h4
    subst h3 h4
    refine ⟨part_trim s, ⟨[], s, by simp⟩, ?_⟩
    have := (part_trim s).len
    simp; omega

/-- The fields are parts of what follows the mark, and how long they are together. -/
theorem parse_shape {l : Str} {e : Ev} (h : parseEventLine l = .ok e) :
    ∃ rest, l = (if e.comment then "Comment".toList else "Dialogue".toList) ++ ':' :: rest ∧
      (∀ x ∈ [e.layer, e.start, e.fin, e.style, e.name, e.ml, e.mr, e.mv, e.effect, e.text], Part x rest) ∧
      byteLen e.layer + byteLen e.start + byteLen e.fin + byteLen e.style + byteLen e.name + byteLen e.ml + byteLen e.mr +
        byteLen e.mv + byteLen e.effect + byteLen e.text + 8 ≤ byteLen rest ∧
      byteLen e.layer + byteLen e.start + byteLen e.fin + byteLen e.style + byteLen e.name + byteLen e.ml + byteLen e.mr +
        byteLen e.mv + 9 ≤ byteLen rest := by
  unfold parseEventLine at h
  cases hs : splitOnce ':' l with
  | none => rw [hs] at h; simp at h
  | some p =>
    obtain ⟨ty, rest⟩ := p
    rw [hs] at h
    dsimp only at h
    have hl := (splitOnce_some hs).1
    cases hk : eventKind ty with
    | none => rw [hk] at h; simp at h
    | some k =>
      rw [hk] at h
      dsimp only at h
      have hty : ty = if k then "Comment".toList else "Dialogue".toList := by
        unfold eventKind at hk
        split at hk
        · next hd => injection hk with hk; subst hk; exact hd
        · split at hk
          · next hd => injection hk with hk; subst hk; exact hd
          · simp at hk
      unfold parseFields at h
      split at h
      · next a b c d e' f g hh i j hsp =>
        split at h
        · next ef tx hef =>
          injection h with h
          subst h
          obtain ⟨r1, e1, q1⟩ := splitn_two hsp
          obtain ⟨r2, e2, q2⟩ := splitn_two q1
          obtain ⟨r3, e3, q3⟩ := splitn_two q2
          obtain ⟨r4, e4, q4⟩ := splitn_two q3
          obtain ⟨r5, e5, q5⟩ := splitn_two q4
          obtain ⟨r6, e6, q6⟩ := splitn_two q5
          obtain ⟨r7, e7, q7⟩ := splitn_two q6
          obtain ⟨r8, e8, q8⟩ := splitn_two q7
          obtain ⟨r9, e9, q9⟩ := splitn_two q8
          have e10 : r9 = j := by
            rw [splitn] at q9
            injection q9
          subst e10
          rw [← e9] at hef
          obtain ⟨x1, x2, x3⟩ := effectText_parts hef
          have hp : ∀ u v : Str, Part v (u ++ ',' :: v) := fun u v => ⟨u ++ [','], [], by simp⟩
          have P0 := part_trim rest
          have P1 : Part r1 rest := ((hp a r1).trans (by rw [← e1]; exact Part.refl _)).trans P0
          have P2 : Part r2 rest := ((hp b r2).trans (by rw [← e2]; exact Part.refl _)).trans P1
          have P3 : Part r3 rest := ((hp c r3).trans (by rw [← e3]; exact Part.refl _)).trans P2
          have P4 : Part r4 rest := ((hp d r4).trans (by rw [← e4]; exact Part.refl _)).trans P3
          have P5 : Part r5 rest := ((hp e' r5).trans (by rw [← e5]; exact Part.refl _)).trans P4
          have P6 : Part r6 rest := ((hp f r6).trans (by rw [← e6]; exact Part.refl _)).trans P5
          have P7 : Part r7 rest := ((hp g r7).trans (by rw [← e7]; exact Part.refl _)).trans P6
          have P8 : Part r8 rest := ((hp hh r8).trans (by rw [← e8]; exact Part.refl _)).trans P7
          have Q : ∀ {u v w : Str}, w = u ++ ',' :: v → Part w rest → Part (trim u) rest := by
            intro u v w hw pw
            exact (part_trim u).trans ((show Part u w from hw ▸ Part.left u _).trans pw)
          refine ⟨rest, by rw [hl, hty], ?_, ?_⟩
          · intro x hx
            simp only [List.mem_cons, List.not_mem_nil, or_false] at hx
            rcases hx with rfl | rfl | rfl | rfl | rfl | rfl | rfl | rfl | rfl | rfl
            · exact Q e1 P0
            · exact Q e2 P1
            · exact Q e3 P2
            · exact Q e4 P3
            · exact Q e5 P4
            · exact Q e6 P5
            · exact Q e7 P6
            · exact Q e8 P7
            · exact x1.trans P8
            · exact x2.trans P8
          · have hc : ∀ u v : Str, byteLen (u ++ ',' :: v) = byteLen u + 1 + byteLen v := by
              intro u v
              rw [byteLen_append, byteLen_cons]
              have : ','.utf8Size = 1 := by decide
              omega
            have L0 := P0.len
            have L1 := congrArg byteLen e1
            have L2 := congrArg byteLen e2
            have L3 := congrArg byteLen e3
            have L4 := congrArg byteLen e4
            have L5 := congrArg byteLen e5
            have L6 := congrArg byteLen e6
            have L7 := congrArg byteLen e7
            have L8 := congrArg byteLen e8
            have L9 := congrArg byteLen e9
            rw [hc] at L1 L2 L3 L4 L5 L6 L7 L8 L9
            have T1 := (part_trim a).len
            have T2 := (part_trim b).len
            have T3 := (part_trim c).len
            have T4 := (part_trim d).len
            have T5 := (part_trim e').len
            have T6 := (part_trim f).len
            have T7 := (part_trim g).len
            have T8 := (part_trim hh).len
            dsimp only
            constructor <;> omega
        · simp at h
        · simp at h
      · simp at h

theorem build_len (e : Ev) : byteLen (build e) = (if e.comment then 7 else 8) + 2 + 9 +
    (byteLen e.layer + byteLen e.start + byteLen e.fin + byteLen e.style + byteLen e.name + byteLen e.ml + byteLen e.mr +
        byteLen e.mv + byteLen e.effect + byteLen e.text) := by
  have h1 : byteLen "Comment".toList = 7 := by decide
  have h2 : byteLen "Dialogue".toList = 8 := by decide
  have h3 : byteLen ": ".toList = 2 := by decide
  have h4 : ','.utf8Size = 1 := by decide
  unfold build
  simp only [byteLen_append, h3, joinStr, byteLen_cons, h4, String.toList_ofList]
  have h5 : byteLen ",".toList = 1 := by decide
  simp only [h5]
  cases e.comment
  · simp only [if_false, h2, Bool.false_eq_true]; omega
  · simp only [if_true, h1]; omega

theorem line_len {l rest : Str} {k : Bool} (h : l = (if k then "Comment".toList else "Dialogue".toList) ++ ':' :: rest) :
    byteLen l = (if k then 7 else 8) + 1 + byteLen rest := by
  have h1 : byteLen "Comment".toList = 7 := by decide
  have h2 : byteLen "Dialogue".toList = 8 := by decide
  have h3 : ':'.utf8Size = 1 := by decide
  rw [h, byteLen_append, byteLen_cons, h3]
  cases k
  · simp only [if_false, h2, Bool.false_eq_true]; omega
  · simp only [if_true, h1]; omega

/-! ## Times -/

theorem stamp_chars (n : Nat) : ∀ c ∈ Time.formatAssTime n, c.isDigit = true ∨ c = ':' ∨ c = '.' := by
  intro c hc
  unfold Time.formatAssTime at hc
  simp only [List.mem_append, List.mem_cons, List.append_assoc, List.cons_append] at hc
  rcases hc with h | rfl | h | rfl | h | rfl | h
  · exact Or.inl (showNat_digits _ c h)
  · simp
  · exact Or.inl (showPad_digits _ _ c h)
  · simp
  · exact Or.inl (showPad_digits _ _ c h)
  · simp
  · exact Or.inl (showPad_digits _ _ c h)

theorem digit_facts {c : Char} (h : c.isDigit = true) : c.utf8Size = 1 ∧ c ≠ '\n' ∧ c ≠ 'D' ∧ c ≠ 'C' := by
  have hn : c.toNat < 128 := by
    simp only [Char.isDigit, Bool.and_eq_true, decide_eq_true_eq] at h
    have := UInt32.le_iff_toNat_le.1 h.2
    have e : c.toNat = c.val.toNat := rfl
    have e2 : ('9' : Char).val.toNat = 57 := by decide
    omega
  refine ⟨by rw [utf8Size_eq, if_pos hn], ?_, ?_, ?_⟩ <;> (rintro rfl; revert h; decide)

theorem stamp_len {n : Nat} (h : n ≤ 2 ^ 31) : byteLen (Time.formatAssTime n) ≤ 13 := by
  have hlen : ∀ m, m < 100 → (showPad 2 m).length = 2 := by
    intro m hm
    rw [Formats.showPad_two hm]; rfl
  rw [Color.byteLen_of_ascii]
  · unfold Time.formatAssTime
    simp only [List.length_append, List.length_cons]
    rw [hlen _ (by omega), hlen _ (by omega), hlen _ (by omega)]
    have : (showNat (n / 360000)).length ≤ 4 := (Nat.length_toDigits_le_iff (by omega) (by omega)).2 (by omega)
    omega
  · intro c hc
    rcases stamp_chars n c hc with h | rfl | rfl
    · exact (digit_facts h).1
    · decide
    · decide

theorem splitOn_len (sep : Char) (s : Str) : ((splitOn sep s).map (fun x => x.length + 1)).sum = s.length + 1 := by
  induction s with
  | nil => rfl
  | cons c s ih =>
    rw [splitOn]
    split
    · simp only [List.map_cons, List.sum_cons, ih, List.length_nil, List.length_cons]; omega
    · cases h : splitOn sep s with
      | nil => exact absurd h (splitOn_ne_nil sep s)
      | cons a t =>
        rw [h] at ih
        simp only [List.map_cons, List.sum_cons, List.length_cons] at ih ⊢
        omega

theorem time_len {s : Str} {n : Nat} (h : Time.parseAssTime s = .ok n) : 3 ≤ byteLen s := by
  have hl := splitOn_len ':' s
  have hb := length_le_byteLen s
  unfold Time.parseAssTime at h
  split at h
  · next a m sec hs =>
    rw [hs] at hl
    simp only [List.map_cons, List.map_nil, List.sum_cons, List.sum_nil] at hl
    cases a with
    | nil => simp [parseU32, parseUnsigned] at h
    | cons c a => simp only [List.length_cons] at hl; omega
  · simp at h

theorem shift_le {t n : Nat} {off : Int} (h : shift t off = .ok n) : n < 2 ^ 31 := by
  unfold shift at h
  dsimp only at h
  split at h
  · simp at h
  · next hn =>
    injection h with h
    subst h
    generalize Karaoke.asI32 t = u at *
    simp only [not_or] at hn
    omega

theorem timing_shape {is : List Nat} {so eo : Int} {i : Nat} {l new : Str} (h : timingEdit is so eo i l = .ok (some new)) :
    ∃ (e : Ev) (s f a b : Nat), parseEventLine l = .ok e ∧ Time.parseAssTime e.start = .ok s ∧ Time.parseAssTime e.fin = .ok f ∧ a ≤ 2 ^ 31 ∧ b ≤ 2 ^ 31 ∧
      new = build { e with start := Time.formatAssTime a, fin := Time.formatAssTime b } := by
  unfold timingEdit at h
  split at h
  · split at h
    · simp at h
    · simp at h
    · next e he =>
      unfold timingEvent at h
      split at h
      · next s f hs hf =>
        unfold retime at h
        split at h
        · next s' h1 =>
          split at h
          · next f' h2 =>
            injection h with h
            injection h with h
            have := shift_le h1
            have := shift_le h2
            exact ⟨e, s, f, _, _, he, hs, hf, by omega, by omega, h.symm⟩
          · simp at h
        · simp at h
      · simp at h
      · simp at h
      · simp at h
  · simp at h

theorem timing_len {is : List Nat} {so eo : Int} {i : Nat} {l new : Str} (h : timingEdit is so eo i l = .ok (some new)) :
    byteLen new ≤ 2 * byteLen l := by
  obtain ⟨e, s, f, a, b, hp, hs, hf, ha, hb, rfl⟩ := timing_shape h
  obtain ⟨rest, h1, _, h2, h3⟩ := parse_shape hp
  rw [build_len, line_len h1]
  dsimp only
  have := time_len hs
  have := time_len hf
  have := stamp_len ha
  have := stamp_len hb
  cases e.comment
  · simp only [if_false, Bool.false_eq_true]; omega
  · simp only [if_true]; omega

theorem effect_shape {is : List Nat} {op : EffectOp} {x : Str} {i : Nat} {l new : Str} (h : effectEdit is op x i l = .ok (some new)) :
    ∃ e, parseEventLine l = .ok e ∧ new = build { e with effect := newEffect op x e.effect } := by
  unfold effectEdit at h
  split at h
  · split at h
    · simp at h
    · simp at h
    · next e he => injection h with h; injection h with h; exact ⟨e, he, h.symm⟩
  · simp at h

theorem newEffect_len (op : EffectOp) (x old : Str) : byteLen (newEffect op x old) ≤ byteLen old + 1 + byteLen x := by
  have : ' '.utf8Size = 1 := by decide
  cases op <;> simp only [newEffect]
  · omega
  · split
    · omega
    · rw [byteLen_append, byteLen_cons]; omega
  · split
    · omega
    · rw [byteLen_append, byteLen_cons]; omega
  · simp

theorem effect_len {is : List Nat} {op : EffectOp} {x : Str} {i : Nat} {l new : Str} (h : effectEdit is op x i l = .ok (some new))
    (hx : byteLen x ≤ 14) : byteLen new ≤ 2 * byteLen l := by
  obtain ⟨e, hp, rfl⟩ := effect_shape h
  obtain ⟨rest, h1, _, h2, h3⟩ := parse_shape hp
  have hn := newEffect_len op x e.effect
  rw [build_len, line_len h1]
  dsimp only
  cases e.comment
  · simp only [if_false, Bool.false_eq_true]; omega
  · simp only [if_true]; omega

theorem toggle_len {is : List Nat} {i : Nat} {l new : Str} (h : toggleEdit is i l = .ok (some new)) : byteLen new ≤ byteLen l + 1 := by
  unfold toggleEdit at h
  split at h
  · injection h with h
    injection h with h
    subst h
    have h1 : byteLen "Comment:".toList = 8 := by decide
    have h2 : byteLen "Dialogue:".toList = 9 := by decide
    unfold toggleLine
    split
    · next t ht =>
      rw [stripPrefix_iff.1 ht, byteLen_append, byteLen_append]; omega
    · split
      · next t ht => rw [stripPrefix_iff.1 ht, byteLen_append, byteLen_append]; omega
      · omega
  · simp at h

end Verif.Report

namespace Verif.Report
open Verif Verif.Doc Verif.Pos Verif.Spec.Report Verif.EventCmd

/-! ## Marks -/

theorem mark_no {m : Str} (h : Mark m) : ',' ∉ m ∧ ' ' ∉ m ∧ 8 ≤ m.length := by
  rcases h with rfl | rfl <;> exact ⟨by decide, by decide, by decide⟩

theorem around {c : Char} {u v a m b : Str} (hc : c ∉ m) (h : u ++ c :: v = a ++ m ++ b) :
    (∃ b', u = a ++ m ++ b') ∨ ∃ a', a = u ++ c :: a' ∧ v = a' ++ m ++ b := by
  rw [List.append_assoc] at h
  rcases List.append_eq_append_iff.1 h with ⟨x, h1, h2⟩ | ⟨x, h1, h2⟩
  · cases x with
    | nil =>
      rw [List.nil_append] at h2
      cases m with
      | nil =>
        left; exact ⟨[], by simpa using h1.symm⟩
      | cons d m =>
        injection h2 with h2 _
        subst h2
        simp at hc
    | cons d x =>
      injection h2 with h2 h3
      subst h2
      exact Or.inr ⟨x, h1, by rw [List.append_assoc]; exact h3⟩
  · rcases List.append_eq_append_iff.1 h2 with ⟨y, h3, h4⟩ | ⟨y, h3, h4⟩
    · left; exact ⟨y, by rw [h1, h3, List.append_assoc]⟩
    · cases y with
      | nil => left; exact ⟨[], by rw [h1, h3]; simp⟩
      | cons d y =>
        injection h4 with h4 _
        subst h4
        rw [h3] at hc
        simp at hc

theorem unmarked_sep {c : Char} {u v : Str} (hc : c = ',' ∨ c = ' ') (hu : Unmarked u) (hv : Unmarked v) : Unmarked (u ++ c :: v) := by
  intro a m b hm h
  have hcm : c ∉ m := by
    rcases hc with rfl | rfl
    · exact (mark_no hm).1
    · exact (mark_no hm).2.1
  rcases around hcm h with ⟨b', h1⟩ | ⟨a', _, h1⟩
  · exact hu _ _ _ hm h1
  · exact hv _ _ _ hm h1

theorem unmarked_nil : Unmarked [] := by
  intro a m b hm h
  have := congrArg List.length h
  have := (mark_no hm).2.2
  simp at *
  omega

theorem unmarked_part {x s : Str} (h : Part x s) (hs : Unmarked s) : Unmarked x := by
  obtain ⟨p, q, rfl⟩ := h
  rintro a m b hm rfl
  exact hs (p ++ a) m (b ++ q) hm (by simp only [List.append_assoc])

theorem unmarked_stamp (n : Nat) : Unmarked (Time.formatAssTime n) := by
  intro a m b hm h
  have hD : 'D' ∉ Time.formatAssTime n ∧ 'C' ∉ Time.formatAssTime n := by
    constructor <;> (intro hc; rcases stamp_chars n _ hc with h | h | h <;> revert h <;> decide)
  rw [h] at hD
  rcases hm with rfl | rfl
  · exact hD.1 (by simp)
  · exact hD.2 (by simp)

theorem isEventLine_mark {y : Str} (h : isEventLine y = true) : ∃ m b, Mark m ∧ y = m ++ b := by
  obtain ⟨t, h | h⟩ := isEventLine_iff.1 h
  · exact ⟨_, t, Or.inl rfl, h⟩
  · exact ⟨_, t, Or.inr rfl, h⟩

/-- A built line whose fields have no marks has only its own. -/
theorem build_marks {e : Ev} (hf : ∀ x ∈ [e.layer, e.start, e.fin, e.style, e.name, e.ml, e.mr, e.mv, e.effect, e.text], Unmarked x)
    {x y : Str} (h : build e = x ++ y) (hx : x ≠ []) : isEventLine y = false := by
  cases hy : isEventLine y with
  | false => rfl
  | true =>
    exfalso
    obtain ⟨m, b, hm, rfl⟩ := isEventLine_mark hy
    have hb : build e = (if e.comment then "Comment:".toList else "Dialogue:".toList) ++ ' ' ::
        (e.layer ++ ',' :: (e.start ++ ',' :: (e.fin ++ ',' :: (e.style ++ ',' :: (e.name ++ ',' :: (e.ml ++ ',' :: (e.mr ++ ',' ::
        (e.mv ++ ',' :: (e.effect ++ ',' :: e.text))))))))) := by
      unfold build
      cases e.comment <;> simp [joinStr]
    have hfs : Unmarked (e.layer ++ ',' :: (e.start ++ ',' :: (e.fin ++ ',' :: (e.style ++ ',' :: (e.name ++ ',' :: (e.ml ++ ',' :: (e.mr ++ ',' ::
        (e.mv ++ ',' :: (e.effect ++ ',' :: e.text))))))))) := by
      have c : (',' : Char) = ',' ∨ (',' : Char) = ' ' := Or.inl rfl
      refine unmarked_sep c (hf _ (by simp)) (unmarked_sep c (hf _ (by simp)) (unmarked_sep c (hf _ (by simp))
        (unmarked_sep c (hf _ (by simp)) (unmarked_sep c (hf _ (by simp)) (unmarked_sep c (hf _ (by simp))
        (unmarked_sep c (hf _ (by simp)) (unmarked_sep c (hf _ (by simp)) (unmarked_sep c (hf _ (by simp)) (hf _ (by simp))))))))))
    rw [hb, ← List.append_assoc] at h
    rcases around (mark_no hm).2.1 h with ⟨b', h1⟩ | ⟨a', _, h1⟩
    · cases x with
      | nil => exact hx rfl
      | cons c x =>
        have hlen := congrArg List.length h1
        have hk : (if e.comment then "Comment:".toList else "Dialogue:".toList).length ≤ 9 := by
          cases e.comment <;> decide
        simp only [List.length_append, List.length_cons] at hlen
        have h8 := (mark_no hm).2.2
        have hx0 : x = [] := List.length_eq_zero_iff.1 (by omega)
        have hb0 : b' = [] := List.length_eq_zero_iff.1 (by omega)
        subst hx0 hb0
        have ht := congrArg List.tail h1
        rw [List.append_nil] at ht
        simp only [List.cons_append, List.nil_append, List.tail_cons] at ht
        rcases hm with rfl | rfl <;> revert ht <;> cases e.comment <;> decide
    · exact hfs _ _ _ hm h1

/-- Behind the mark of a line there is none, if marks stand only at the beginning of lines. -/
theorem rest_unmarked {orig b l t rest K : Str} (hm : MarksBegin orig) (ho : orig = b ++ l ++ t) (hl : '\n' ∉ l)
    (h : l = K ++ ':' :: rest) : Unmarked rest := by
  rintro a m q hmk rfl
  have hne : K ++ ':' :: a ≠ [] := by simp
  rcases hm (b ++ (K ++ ':' :: a)) m (q ++ t) hmk (by
    rw [ho, h]; simp only [List.append_assoc, List.cons_append]) with h1 | h1
  · simp at h1
  · rw [List.getLast?_append, List.getLast?_eq_some_getLast hne, Option.some_or, ← List.getLast?_eq_some_getLast hne] at h1
    apply hl
    have : '\n' ∈ K ++ ':' :: a := List.mem_of_getLast? h1
    have e : K ++ ':' :: (a ++ m ++ q) = (K ++ ':' :: a) ++ (m ++ q) := by simp only [List.append_assoc, List.cons_append]
    rw [h, e]
    exact List.mem_append_left _ this

theorem build_noNl {e : Ev} (hf : ∀ x ∈ [e.layer, e.start, e.fin, e.style, e.name, e.ml, e.mr, e.mv, e.effect, e.text], '\n' ∉ x) :
    '\n' ∉ build e := by
  have h1 : '\n' ∉ "Comment".toList := by decide
  have h2 : '\n' ∉ "Dialogue".toList := by decide
  have h3 : '\n' ∉ ": ".toList := by decide
  have h4 : '\n' ∉ ",".toList := by decide
  simp only [List.mem_cons, List.not_mem_nil, or_false, forall_eq_or_imp, forall_eq] at hf
  obtain ⟨f1, f2, f3, f4, f5, f6, f7, f8, f9, f10⟩ := hf
  unfold build
  simp only [joinStr, List.mem_append, not_or]
  refine ⟨⟨by cases e.comment <;> simp, h3⟩, ?_⟩
  simp [f1, f2, f3, f4, f5, f6, f7, f8, f9, f10]

theorem part_noNl {x rest l K : Str} (h : l = K ++ ':' :: rest)
    (hp : Part x rest) (hl : '\n' ∉ l) : '\n' ∉ x := by
  intro hx
  apply hl
  obtain ⟨a, b, rfl⟩ := hp
  rw [h]
  simp [hx]

theorem timing_tame {orig : Str} (hm : MarksBegin orig) {is : List Nat} {so eo : Int} (i : Nat) (l new b t : Str)
    (ho : orig = b ++ l ++ t) (hl : '\n' ∉ l) (h : timingEdit is so eo i l = .ok (some new)) : Tame l new := by
  obtain ⟨e, s, f, x, y, hp, hs, hf, hx, hy, rfl⟩ := timing_shape h
  obtain ⟨rest, h1, h2, _⟩ := parse_shape hp
  have hu := rest_unmarked hm ho hl h1
  refine Or.inr ⟨build_noNl ?_, fun u v huv hne => build_marks ?_ huv hne⟩
  · intro z hz
    simp only [List.mem_cons, List.not_mem_nil, or_false] at hz
    have st : ∀ n, '\n' ∉ Time.formatAssTime n := by
      intro n hn
      rcases stamp_chars n _ hn with h | h | h <;> revert h <;> decide
    rcases hz with rfl | rfl | rfl | rfl | rfl | rfl | rfl | rfl | rfl | rfl <;>
      first | exact st _ | exact part_noNl h1 (h2 _ (by simp)) hl
  · intro z hz
    simp only [List.mem_cons, List.not_mem_nil, or_false] at hz
    rcases hz with rfl | rfl | rfl | rfl | rfl | rfl | rfl | rfl | rfl | rfl <;>
      first | exact unmarked_stamp _ | exact unmarked_part (h2 _ (by simp)) hu

theorem newEffect_unmarked (op : EffectOp) {x old : Str} (hx : Unmarked x) (ho : Unmarked old) : Unmarked (newEffect op x old) := by
  cases op <;> simp only [newEffect]
  · exact hx
  · split
    · exact hx
    · exact unmarked_sep (Or.inr rfl) ho hx
  · split
    · exact hx
    · exact unmarked_sep (Or.inr rfl) hx ho
  · exact unmarked_nil

theorem newEffect_noNl (op : EffectOp) {x old : Str} (hx : '\n' ∉ x) (ho : '\n' ∉ old) : '\n' ∉ newEffect op x old := by
  cases op <;> simp only [newEffect]
  · exact hx
  · split <;> simp [hx, ho]
  · split <;> simp [hx, ho]
  · simp

theorem effect_tame {orig : Str} (hm : MarksBegin orig) {is : List Nat} {op : EffectOp} {x : Str} (hx : Unmarked x) (hn : '\n' ∉ x)
    (i : Nat) (l new b t : Str)
    (ho : orig = b ++ l ++ t) (hl : '\n' ∉ l) (h : effectEdit is op x i l = .ok (some new)) : Tame l new := by
  obtain ⟨e, hp, rfl⟩ := effect_shape h
  obtain ⟨rest, h1, h2, _⟩ := parse_shape hp
  have hu := rest_unmarked hm ho hl h1
  refine Or.inr ⟨build_noNl ?_, fun u v huv hne => build_marks ?_ huv hne⟩
  · intro z hz
    simp only [List.mem_cons, List.not_mem_nil, or_false] at hz
    rcases hz with rfl | rfl | rfl | rfl | rfl | rfl | rfl | rfl | rfl | rfl <;>
      first | exact newEffect_noNl op hn (part_noNl h1 (h2 _ (by simp)) hl) | exact part_noNl h1 (h2 _ (by simp)) hl
  · intro z hz
    simp only [List.mem_cons, List.not_mem_nil, or_false] at hz
    rcases hz with rfl | rfl | rfl | rfl | rfl | rfl | rfl | rfl | rfl | rfl <;>
      first | exact newEffect_unmarked op hx (unmarked_part (h2 _ (by simp)) hu) | exact unmarked_part (h2 _ (by simp)) hu

/-! ## Changing the style -/

/-- A line with a mark, behind which there is none, has only that one. -/
theorem line_marks {K rest x y : Str} (hK : Mark K) (hr : Unmarked rest) (h : K ++ rest = x ++ y) (hx : x ≠ []) :
    isEventLine y = false := by
  cases hy : isEventLine y with
  | false => rfl
  | true =>
    exfalso
    obtain ⟨m, b, hm, rfl⟩ := isEventLine_mark hy
    rcases List.append_eq_append_iff.1 h with ⟨z, h1, h2⟩ | ⟨z, h1, h2⟩
    · exact hr z m b hm (by rw [h2, List.append_assoc])
    · cases z with
      | nil => exact hr [] m b hm (by simpa using h2.symm)
      | cons c z =>
        have hc : c = 'D' ∨ c = 'C' := by
          rcases hm with rfl | rfl
          · left; injection h2 with h2; exact h2.symm
          · right; injection h2 with h2; exact h2.symm
        cases x with
        | nil => exact hx rfl
        | cons e x =>
          have ht : c ∈ K.tail := by rw [h1]; simp
          revert ht
          rcases hK with rfl | rfl <;> rcases hc with rfl | rfl <;> decide

theorem replaceAll_unmarked {old new : Str} (hn : Unmarked new) : ∀ (n : Nat) (s : Str), s.length ≤ n → Unmarked s →
    Unmarked (replaceAll (',' :: old ++ [',']) (',' :: new ++ [',']) s) := by
  intro n
  induction n with
  | zero =>
    intro s hs _
    have : s = [] := List.length_eq_zero_iff.1 (by omega)
    subst this
    exact unmarked_nil
  | succ n ih =>
    intro s hs hu
    cases h : splitOnceStr (',' :: old ++ [',']) s with
    | none =>
      rw [replaceAll_lacks (splitOnceStr_none.1 h)]
      exact hu
    | some p =>
      obtain ⟨a, b⟩ := p
      rw [replaceAll_split (by simp) h]
      have hs1 := (splitOnceStr_some h).1
      have hb : b.length ≤ n := by
        have := congrArg List.length hs1
        simp at this
        omega
      have e : a ++ (',' :: new ++ [',']) ++ replaceAll (',' :: old ++ [',']) (',' :: new ++ [',']) b =
          a ++ ',' :: (new ++ ',' :: replaceAll (',' :: old ++ [',']) (',' :: new ++ [',']) b) := by simp
      rw [e]
      refine unmarked_sep (Or.inl rfl) (unmarked_part (hs1 ▸ ⟨[], (',' :: old ++ [',']) ++ b, by simp⟩) hu)
        (unmarked_sep (Or.inl rfl) hn (ih b hb (unmarked_part (hs1 ▸ ⟨a ++ (',' :: old ++ [',']), [], by simp⟩) hu)))

theorem replaceAll_noNl {pat rep : Str} (hp : pat ≠ []) (hn : '\n' ∉ rep) : ∀ (n : Nat) (s : Str), s.length ≤ n → '\n' ∉ s →
    '\n' ∉ replaceAll pat rep s := by
  intro n
  induction n with
  | zero =>
    intro s hs _
    have : s = [] := List.length_eq_zero_iff.1 (by omega)
    subst this
    simp
  | succ n ih =>
    intro s hs hu
    cases h : splitOnceStr pat s with
    | none => rw [replaceAll_lacks (splitOnceStr_none.1 h)]; exact hu
    | some p =>
      obtain ⟨a, b⟩ := p
      rw [replaceAll_split hp h]
      have hs1 := (splitOnceStr_some h).1
      have hb : b.length ≤ n := by
        have := congrArg List.length hs1
        have : 0 < pat.length := by cases pat with | nil => exact absurd rfl hp | cons => simp
        simp at *
        omega
      rw [hs1] at hu
      simp only [List.mem_append, not_or] at hu ⊢
      exact ⟨⟨hu.1.1, hn⟩, ih b hb hu.2⟩

theorem mark_noComma {K : Str} (h : Mark K) : ',' ∉ K := (mark_no h).1

theorem replaceAll_mark {pat rep K rest : Str} (hK : Mark K) (hp : pat.head? = some ',') :
    replaceAll pat rep (K ++ rest) = K ++ replaceAll pat rep rest := by
  have key : ∀ k : Str, ',' ∉ k → replaceAll pat rep (k ++ rest) = k ++ replaceAll pat rep rest := by
    intro k
    induction k with
    | nil => intro _; rfl
    | cons c k ih =>
      intro hk
      rw [List.cons_append, replaceAll_cons, ih (fun h => hk (by simp [h])), List.cons_append]
      rw [stripPrefix_eq_none]
      intro t ht
      cases pat with
      | nil => simp at hp
      | cons p ps =>
        injection hp with hp
        subst hp
        injection ht with ht
        exact hk (by simp [ht])
  exact key K (mark_noComma hK)

theorem replaceAll_len {pat rep : Str} (hp : pat ≠ []) (hb : byteLen rep ≤ 2 * byteLen pat) : ∀ (n : Nat) (s : Str), s.length ≤ n →
    byteLen (replaceAll pat rep s) ≤ 2 * byteLen s := by
  intro n
  induction n with
  | zero =>
    intro s hs
    have : s = [] := List.length_eq_zero_iff.1 (by omega)
    subst this
    simp
  | succ n ih =>
    intro s hs
    cases h : splitOnceStr pat s with
    | none => rw [replaceAll_lacks (splitOnceStr_none.1 h)]; omega
    | some p =>
      obtain ⟨a, b⟩ := p
      rw [replaceAll_split hp h]
      have hs1 := (splitOnceStr_some h).1
      have hb' : b.length ≤ n := by
        have := congrArg List.length hs1
        have : 0 < pat.length := by cases pat with | nil => exact absurd rfl hp | cons => simp
        simp at *
        omega
      have := ih b hb'
      have e := congrArg byteLen hs1
      simp only [byteLen_append] at e ⊢
      omega

theorem apply_out {old new : Str} {filter : Option Str} {l out : Str} (h : StyleCmd.applyEdit old new filter l = some out) :
    out = replaceAll (',' :: old ++ [',']) (',' :: new ++ [',']) l := by
  unfold StyleCmd.applyEdit at h
  split at h
  · split at h
    · split at h
      · injection h with h; exact h.symm
      · simp at h
    · split at h
      · injection h with h; exact h.symm
      · simp at h
  · simp at h

theorem apply_len {old new : Str} {filter : Option Str} {l out : Str} (h : StyleCmd.applyEdit old new filter l = some out)
    (hl : byteLen new ≤ 2 * byteLen old + 2) : byteLen out ≤ 2 * byteLen l := by
  rw [apply_out h]
  refine replaceAll_len (by simp) ?_ _ _ (Nat.le_refl _)
  have : byteLen [','] = 1 := by decide
  have : (',').utf8Size = 1 := by decide
  simp only [byteLen_append, byteLen_cons, List.cons_append]
  omega

theorem apply_tame {orig : Str} (hm : MarksBegin orig) {old new : Str} {filter : Option Str} (hx : Unmarked new) (hn : '\n' ∉ new)
    (l out b t : Str) (ho : orig = b ++ l ++ t) (hl : '\n' ∉ l) (hev : isEventLine l = true)
    (h : StyleCmd.applyEdit old new filter l = some out) : Tame l out := by
  have hout := apply_out h
  obtain ⟨K, rest, hK, rfl⟩ := isEventLine_mark hev
  have hrest : Unmarked rest := by
    rintro a m q hmk rfl
    rcases hm (b ++ K ++ a) m (q ++ t) hmk (by rw [ho]; simp only [List.append_assoc]) with h1 | h1
    · rcases hK with rfl | rfl <;> simp at h1
    · have hne : K ++ a ≠ [] := by rcases hK with rfl | rfl <;> simp
      rw [List.append_assoc, List.getLast?_append, List.getLast?_eq_some_getLast hne, Option.some_or,
        ← List.getLast?_eq_some_getLast hne] at h1
      have : '\n' ∈ K ++ a := List.mem_of_getLast? h1
      apply hl
      rw [← List.append_assoc, ← List.append_assoc]
      exact List.mem_append_left _ (List.mem_append_left _ this)
  rw [replaceAll_mark hK rfl] at hout
  have hnl : '\n' ∉ (',' :: new ++ [',']) := by simp [hn]
  refine Or.inr ⟨?_, fun x y hxy hne => ?_⟩
  · rw [hout]
    simp only [List.mem_append, not_or] at hl ⊢
    exact ⟨hl.1, replaceAll_noNl (by simp) hnl _ _ (Nat.le_refl _) hl.2⟩
  · exact line_marks hK (replaceAll_unmarked hx _ _ (Nat.le_refl _) hrest) (hout ▸ hxy) hne

end Verif.Report
