import Verif.Spec.Tokenizer
import Verif.Lemmas.SrtDoc
import Verif.Lemmas.Ranges
/-! Lemmas about the tokenizer. -/
namespace Verif.Tokenizer
open Verif
open Verif.Spec.Tokenizer
open Verif.Spec.Script (size)
open Verif.Spec.EventCmd (White)

theorem scan_eq (stop : Char → Bool) : ∀ (n : Nav) (s : Str),
    scan stop n s = (s.takeWhile (fun c => !stop c), (s.takeWhile (fun c => !stop c)).foldl move n, s.dropWhile (fun c => !stop c))
  | n, [] => rfl
  | n, c :: s => by
    rw [scan]
    cases h : stop c
    · rw [if_neg (by simp), scan_eq stop (move n c) s]
      simp [List.takeWhile_cons, List.dropWhile_cons, h]
    · simp [List.takeWhile_cons, List.dropWhile_cons, h]

theorem move_pos (n : Nav) (c : Char) : (move n c).pos = n.pos + c.utf8Size := by
  unfold move
  split
  · rfl
  · split <;> rfl

theorem moves_pos : ∀ (l : Str) (n : Nav), (l.foldl move n).pos = n.pos + size l
  | [], n => rfl
  | c :: l, n => by
    rw [List.foldl_cons, moves_pos l, move_pos]
    simp only [size, List.map_cons, List.sum_cons]
    omega

theorem takeWhile_stop {p : Char → Bool} {s : Str} {c : Char} (h : c ∈ s.takeWhile p) : p c = true := by
  induction s with
  | nil => cases h
  | cons a s ih =>
    rw [List.takeWhile_cons] at h
    split at h
    · rename_i ha
      rcases List.mem_cons.1 h with e | h1
      · rw [e]; exact ha
      · exact ih h1
    · cases h

theorem dropWhile_head {p : Char → Bool} {s : Str} {c : Char} (h : (s.dropWhile p).head? = some c) : p c = false := by
  induction s with
  | nil => cases h
  | cons a s ih =>
    rw [List.dropWhile_cons] at h
    split at h
    · exact ih h
    · rename_i ha
      cases h
      simpa using ha

/-! ### Override blocks -/

theorem scanBlock_eq : ∀ (s : Str) (d : Nat) (n n' : Nav), (scanBlock d n s).1 = (scanBlock d n' s).1 ∧ (scanBlock d n s).2.2 = (scanBlock d n' s).2.2 ∧
    (scanBlock d n s).2.1 = (scanBlock d n s).1.foldl move n ∧ s = (scanBlock d n s).1 ++ (scanBlock d n s).2.2
  | [], d, n, n' => ⟨rfl, rfl, rfl, rfl⟩
  | c :: s, d, n, n' => by
    simp only [scanBlock]
    by_cases h : (if c = '{' then d + 1 else if c = '}' then d - 1 else d) > 0
    · rw [if_pos h, if_pos h]
      obtain ⟨h1, h2, h3, h4⟩ := scanBlock_eq s (if c = '{' then d + 1 else if c = '}' then d - 1 else d) (move n c) (move n' c)
      refine ⟨by rw [h1], h2, h3, ?_⟩
      rw [List.cons_append, ← h4]
    · rw [if_neg h, if_neg h]
      exact ⟨rfl, rfl, rfl, rfl⟩

theorem balanced_count {x : List Char} (h : Balanced x) : x.count '{' = x.count '}' := by
  induction h with
  | nil => rfl
  | char h1 h2 _ ih =>
    rename_i c s
    rw [List.count_cons_of_ne h1, List.count_cons_of_ne h2, ih]
  | block _ _ ih1 ih2 =>
    simp [List.count_cons, List.count_append, ih1, ih2]
    omega

theorem scanBlock_prefix : ∀ (s : Str) (d : Nat) (n : Nav), 0 < d → ∀ p q, (scanBlock d n s).1 = p ++ q → p.count '}' < d + p.count '{'
  | [], d, n, hd, p, q, h => by
    simp only [scanBlock] at h
    have : p = [] := by cases p with | nil => rfl | cons => cases h
    rw [this]; simpa using hd
  | c :: s, d, n, hd, p, q, h => by
    simp only [scanBlock] at h
    cases p with
    | nil => simpa using hd
    | cons a p =>
      by_cases h0 : (if c = '{' then d + 1 else if c = '}' then d - 1 else d) > 0
      · rw [if_pos h0] at h
        obtain ⟨h1, h2⟩ := List.cons.inj h
        have := scanBlock_prefix s _ (move n c) h0 p q h2
        subst h1
        by_cases e1 : c = '{'
        · subst e1
          simp [List.count_cons] at this ⊢
          omega
        · rw [if_neg e1] at this h0
          by_cases e2 : c = '}'
          · subst e2
            simp [List.count_cons] at this h0 ⊢
            omega
          · rw [if_neg e2] at this
            rw [List.count_cons_of_ne e1, List.count_cons_of_ne e2]
            exact this
      · rw [if_neg h0] at h
        cases h

/-- The text closes `k` blocks and is balanced otherwise. -/
def Closes : Nat → List Char → Prop
  | 0, x => Balanced x
  | k + 1, x => ∃ a b, Balanced a ∧ x = a ++ '}' :: b ∧ Closes k b

theorem closes_block {a : List Char} (ha : Balanced a) : ∀ {k b}, Closes k b → Closes k ('{' :: a ++ '}' :: b)
  | 0, b, h => Balanced.block ha h
  | k + 1, b, ⟨x, y, h1, h2, h3⟩ => ⟨'{' :: a ++ '}' :: x, y, Balanced.block ha h1, by rw [h2]; simp, h3⟩

theorem closes_char {c : Char} (h1 : c ≠ '{') (h2 : c ≠ '}') : ∀ {k b}, Closes k b → Closes k (c :: b)
  | 0, b, h => Balanced.char h1 h2 h
  | k + 1, b, ⟨x, y, h3, h4, h5⟩ => ⟨c :: x, y, Balanced.char h1 h2 h3, by rw [h4]; rfl, h5⟩

theorem scanBlock_closes : ∀ (s : Str) (k : Nat) (n : Nav), (scanBlock (k + 1) n s).2.2 = [] ∨
    ((scanBlock (k + 1) n s).2.2.head? = some '}' ∧ Closes k (scanBlock (k + 1) n s).1)
  | [], k, n => .inl rfl
  | c :: s, k, n => by
    simp only [scanBlock]
    by_cases e1 : c = '{'
    · subst e1
      rw [if_pos rfl, if_pos (by omega)]
      rcases scanBlock_closes s (k + 1) (move n '{') with h | ⟨h1, h2⟩
      · exact .inl h
      · refine .inr ⟨h1, ?_⟩
        obtain ⟨a, b, h3, h4, h5⟩ := h2
        show Closes k ('{' :: (scanBlock (k + 1 + 1) (move n '{') s).1)
        rw [h4]
        exact closes_block h3 h5
    · rw [if_neg e1]
      by_cases e2 : c = '}'
      · subst e2
        rw [if_pos rfl]
        cases k with
        | zero =>
          rw [if_neg (by omega)]
          exact .inr ⟨rfl, Balanced.nil⟩
        | succ k =>
          rw [if_pos (by omega)]
          rcases scanBlock_closes s k (move n '}') with h | ⟨h1, h2⟩
          · exact .inl h
          · exact .inr ⟨h1, [], _, Balanced.nil, rfl, h2⟩
      · rw [if_neg e2, if_pos (by omega)]
        rcases scanBlock_closes s k (move n c) with h | ⟨h1, h2⟩
        · exact .inl h
        · exact .inr ⟨h1, closes_char e1 e2 h2⟩

/-! ### Types -/

theorem digit_iff {c : Char} : c.isDigit = true ↔ Digit c := by
  unfold Char.isDigit Digit
  simp only [Bool.and_eq_true, decide_eq_true_eq, ge_iff_le, UInt32.le_iff_toNat_le]
  exact Iff.rfl

theorem hex_of {c : Char} (h : isHexDigit c = true) : Hex c := by
  unfold isHexDigit at h
  simp only [Bool.or_eq_true, Bool.and_eq_true, decide_eq_true_eq, Char.le_def, UInt32.le_iff_toNat_le] at h
  unfold Hex Digit
  have e : c.toNat = c.val.toNat := rfl
  rw [e]
  rcases h with (⟨h1, h2⟩ | ⟨h1, h2⟩) | ⟨h1, h2⟩
  · exact .inl ⟨h1, h2⟩
  · exact .inr (.inr ⟨h1, h2⟩)
  · exact .inr (.inl ⟨h1, h2⟩)

theorem hex_size : ∀ {h : Str}, (∀ c ∈ h, Hex c) → byteLen h = h.length
  | [], _ => rfl
  | c :: h, hc => by
    have h1 := hex_size (h := h) (fun x hx => hc x (by simp [hx]))
    have h2 : c.utf8Size = 1 := by
      have := hc c (by simp)
      unfold Hex Digit at this
      rw [Char.utf8Size]
      have e : c.toNat = c.val.toNat := rfl
      rw [e] at this
      rw [if_pos]
      rw [UInt32.le_iff_toNat_le]
      show c.val.toNat ≤ 127
      omega
    simp only [byteLen, List.map_cons, List.sum_cons, List.length_cons] at h1 ⊢
    rw [h1, h2]
    omega

theorem isHexValue_spec {s : Str} (h : isHexValue s = true) : ∃ h e, s = '&' :: 'H' :: h ++ e ∧ (e = [] ∨ e = ['&']) ∧ (∀ c ∈ h, Hex c) ∧
    (h.length = 2 ∨ h.length = 4 ∨ h.length = 6 ∨ h.length = 8) := by
  unfold isHexValue at h
  cases hp : stripPrefix ['&', 'H'] s with
  | none => rw [hp] at h; cases h
  | some p =>
    rw [hp] at h
    have hs := stripPrefix_iff.1 hp
    simp only [Bool.and_eq_true, Bool.not_eq_true', beq_iff_eq, decide_eq_true_eq] at h
    obtain ⟨⟨⟨h1, h2⟩, h3⟩, h4⟩ := h
    by_cases hl : p.getLast? = some '&'
    · simp only [hl, if_true] at h1 h2 h3 h4
      have h5 : ∀ c ∈ p.dropLast, Hex c := fun c hc => hex_of (List.all_eq_true.1 h4 c hc)
      rw [hex_size h5] at h2 h3
      refine ⟨p.dropLast, ['&'], ?_, .inr rfl, h5, ?_⟩
      · rw [hs]
        obtain ⟨q, hq⟩ := List.getLast?_eq_some_iff.1 hl
        rw [hq]; simp
      · have : p.dropLast.length ≠ 0 := by intro e; rw [List.length_eq_zero_iff] at e; rw [e] at h1; cases h1
        omega
    · simp only [hl, if_false] at h1 h2 h3 h4
      have h5 : ∀ c ∈ p, Hex c := fun c hc => hex_of (List.all_eq_true.1 h4 c hc)
      rw [hex_size h5] at h2 h3
      refine ⟨p, [], by rw [hs]; simp, .inl rfl, h5, ?_⟩
      have : p.length ≠ 0 := by intro e; rw [List.length_eq_zero_iff] at e; rw [e] at h1; cases h1
      omega

theorem textType_shape {ctx : Ctx} {sp s : Str} {a b l : Nat} (hc : ctx ≠ .sectionHeader)
    (h : ∀ c ∈ sp, c ≠ ',' ∧ c ≠ '{' ∧ c ≠ '[' ∧ c ≠ '\n' ∧ c ≠ '\r') :
    Shape ⟨textType ctx sp, sp, a, b, l⟩ s ∧ ∀ v, valueAfter v (textType ctx sp) = v := by
  unfold textType
  rw [if_neg hc]
  by_cases h1 : isHexValue sp = true
  · rw [if_pos h1]
    exact ⟨isHexValue_spec h1, fun _ => rfl⟩
  · rw [if_neg h1]
    by_cases h2 : (!sp.isEmpty && sp.all (fun c => c.isDigit || c == '.' || c == '-')) = true
    · rw [if_pos h2]
      rw [Bool.and_eq_true, List.all_eq_true] at h2
      refine ⟨?_, fun _ => rfl⟩
      intro c hc
      have := h2.2 c hc
      simp only [Bool.or_eq_true, beq_iff_eq] at this
      rcases this with (h3 | h3) | h3
      · exact .inl (digit_iff.1 h3)
      · exact .inr (.inl h3)
      · exact .inr (.inr (.inl h3))
    · rw [if_neg h2]
      by_cases h3 : (!sp.isEmpty && sp.all isWs) = true
      · rw [if_pos h3]
        rw [Bool.and_eq_true, List.all_eq_true] at h3
        refine ⟨?_, fun _ => rfl⟩
        intro c hc
        exact ⟨(SrtDoc.white_iff c).1 (h3.2 c hc), (h c hc).2.2.2.1, (h c hc).2.2.2.2⟩
      · rw [if_neg h3]
        exact ⟨h, fun _ => rfl⟩

theorem valueType_shape {sp s : Str} {a b l : Nat}
    (h : ∀ c ∈ sp, c ≠ ',' ∧ c ≠ '{' ∧ c ≠ '[' ∧ c ≠ '\n' ∧ c ≠ '\r') :
    Shape ⟨valueType sp, sp, a, b, l⟩ s ∧ ∀ v, valueAfter v (valueType sp) = v := by
  unfold valueType
  by_cases h2 : (!sp.isEmpty && sp.all (fun c => c.isDigit || c == '.' || c == '-' || c == ':')) = true
  · rw [if_pos h2]
    rw [Bool.and_eq_true, List.all_eq_true] at h2
    refine ⟨?_, fun _ => rfl⟩
    intro c hc
    have := h2.2 c hc
    simp only [Bool.or_eq_true, beq_iff_eq] at this
    rcases this with ((h3 | h3) | h3) | h3
    · exact .inl (digit_iff.1 h3)
    · exact .inr (.inl h3)
    · exact .inr (.inr (.inl h3))
    · exact .inr (.inr (.inr h3))
  · rw [if_neg h2]
    by_cases h3 : (!sp.isEmpty && sp.all isWs) = true
    · rw [if_pos h3]
      rw [Bool.and_eq_true, List.all_eq_true] at h3
      refine ⟨?_, fun _ => rfl⟩
      intro c hc
      exact ⟨(SrtDoc.white_iff c).1 (h3.2 c hc), (h c hc).2.2.2.1, (h c hc).2.2.2.2⟩
    · rw [if_neg h3]
      exact ⟨h, fun _ => rfl⟩

/-! ### One token -/

/-- Within a header or an override block what follows is its end. -/
def OkCtx (ctx : Ctx) (rest : Str) : Prop := (ctx = .sectionHeader → EndsAt ']' rest) ∧ (ctx = .styleOverride → EndsAt '}' rest)

/-- What a step of the tokenizer over the text `x` does. -/
def Step (simd : Bool) (ctx : Ctx) (n : Nav) (x : Str) (r : Ctx × Option (Ty × Str × Nav × Str)) : Prop :=
  (x = ['\r'] ∧ r = (.document, none)) ∨
  ∃ ctx' ty sp nav rest, r = (ctx', some (ty, sp, nav, rest)) ∧ sp ≠ [] ∧ x = sp ++ rest ∧
    (∀ a b l, Shape ⟨ty, sp, a, b, l⟩ rest) ∧ OkCtx ctx' rest ∧
    decide (ctx' = .fieldValue) = valueAfter (decide (ctx = .fieldValue)) ty ∧
    (nav = sp.foldl move n ∨ (simd = true ∧ (∀ c ∈ sp, c ≠ '\n' ∧ c ≠ '\r') ∧ nav = ⟨n.pos + size sp, n.line, n.col, n.last⟩))

theorem step_single {simd : Bool} {ctx ctx' : Ctx} {n : Nav} {c : Char} {s : Str} {ty : Ty} (h1 : ∀ a b l, Shape ⟨ty, [c], a, b, l⟩ s)
    (h2 : OkCtx ctx' s) (h3 : decide (ctx' = .fieldValue) = valueAfter (decide (ctx = .fieldValue)) ty) :
    Step simd ctx n (c :: s) (ctx', some (single ty n c s)) :=
  .inr ⟨ctx', ty, [c], move n c, s, rfl, by simp, rfl, h1, h2, h3, .inl rfl⟩

theorem ok_doc (s : Str) : OkCtx .document s := ⟨nofun, nofun⟩
theorem ok_value (s : Str) : OkCtx .fieldValue s := ⟨nofun, nofun⟩

theorem ok_other {ctx : Ctx} (h1 : ctx ≠ .sectionHeader) (h2 : ctx ≠ .styleOverride) (s : Str) : OkCtx ctx s :=
  ⟨fun h => absurd h h1, fun h => absurd h h2⟩

theorem takeWhile_cons_ne {p : Char → Bool} {c : Char} {s : Str} (h : p c = true) : (c :: s).takeWhile p ≠ [] := by
  rw [List.takeWhile_cons, if_pos h]
  simp

theorem split_while (p : Char → Bool) (s : Str) : s = s.takeWhile p ++ s.dropWhile p := (List.takeWhile_append_dropWhile).symm

theorem step_comment {simd : Bool} {n : Nav} {c : Char} {s : Str} (h : c = ';' ∨ (c = '!' ∧ s.head? = some ':')) :
    Step simd .document n (c :: s) (.document, some (scanComment n (c :: s))) := by
  refine .inr ⟨.document, .comment, _, _, _, by rw [scanComment, scan_eq], ?_, split_while _ _, ?_, ok_doc _, rfl, .inl rfl⟩
  · apply takeWhile_cons_ne
    rcases h with h | ⟨h, _⟩ <;> rw [h] <;> decide
  · intro a b l
    refine ⟨?_, ?_, ?_, ?_⟩
    · rcases h with rfl | ⟨rfl, h⟩
      · exact .inl rfl
      · cases s with
        | nil => cases h
        | cons d s =>
          cases h
          exact .inr ⟨_, rfl⟩
    · intro h; have := takeWhile_stop h; simp at this
    · intro h; have := takeWhile_stop h; simp at this
    · show (EndsAt '\n' ((c :: s).dropWhile (fun c => !(c == '\n' || c == '\r'))) ∨ EndsAt '\r' ((c :: s).dropWhile (fun c => !(c == '\n' || c == '\r'))))
      generalize hd : (c :: s).dropWhile (fun c => !(c == '\n' || c == '\r')) = d
      cases d with
      | nil => exact .inl (.inl rfl)
      | cons e d =>
        have := dropWhile_head (p := fun c => !(c == '\n' || c == '\r')) (s := c :: s) (c := e) (by rw [hd]; rfl)
        simp only [Bool.not_eq_false', Bool.or_eq_true, beq_iff_eq] at this
        rcases this with rfl | rfl
        · exact .inl (.inr rfl)
        · exact .inr (.inr rfl)

theorem step_text {simd : Bool} {ctx : Ctx} {n : Nav} {c : Char} {s : Str} (h1 : ctx ≠ .sectionHeader) (h2 : ctx ≠ .styleOverride)
    (h3 : ctx ≠ .fieldValue) (h4 : stops ctx c = false) : Step simd ctx n (c :: s) (ctx, some (scanText simd ctx n (c :: s))) := by
  unfold scanText
  by_cases hb : (simd && ctx != .fieldValue) = true
  · rw [if_pos hb]
    have hsp : ∀ d ∈ (c :: s).takeWhile (fun c => !isDelim c), d ≠ ',' ∧ d ≠ '{' ∧ d ≠ '[' ∧ d ≠ '\n' ∧ d ≠ '\r' := by
      intro d hd
      have := takeWhile_stop hd
      simp only [isDelim, Bool.not_eq_true', Bool.or_eq_false_iff, beq_eq_false_iff_ne] at this
      refine ⟨by simp_all, by simp_all, by simp_all, by simp_all, by simp_all⟩
    refine .inr ⟨ctx, textType ctx (jump n (c :: s)).1, (jump n (c :: s)).1, (jump n (c :: s)).2.1, (jump n (c :: s)).2.2, rfl, ?_, split_while (fun c => !isDelim c) _, ?_, ok_other h1 h2 _, ?_, .inr ⟨?_, ?_, ?_⟩⟩
    · apply takeWhile_cons_ne (p := fun c => !isDelim c)
      simp only [stops, if_neg h3, Bool.or_eq_false_iff, beq_eq_false_iff_ne] at h4
      simp only [isDelim, Bool.not_eq_true', Bool.or_eq_false_iff, beq_eq_false_iff_ne]
      simp_all
    · exact fun a b l => (textType_shape h1 hsp).1
    · exact ((textType_shape (s := []) (a := 0) (b := 0) (l := 0) h1 hsp).2 _).symm
    · exact (Bool.and_eq_true _ _ ▸ hb).1
    · exact fun d hd => ⟨(hsp d hd).2.2.2.1, (hsp d hd).2.2.2.2⟩
    · rfl
  · rw [if_neg hb, scan_eq]
    have hsp : ∀ d ∈ (c :: s).takeWhile (fun c => !stops ctx c), d ≠ ',' ∧ d ≠ '{' ∧ d ≠ '[' ∧ d ≠ '\n' ∧ d ≠ '\r' := by
      intro d hd
      have := takeWhile_stop hd
      simp only [stops, if_neg h3, Bool.not_eq_true', Bool.or_eq_false_iff, beq_eq_false_iff_ne] at this
      refine ⟨by simp_all, by simp_all, by simp_all, by simp_all, by simp_all⟩
    refine .inr ⟨ctx, _, _, _, _, rfl, ?_, split_while _ _, ?_, ok_other h1 h2 _, ?_, .inl rfl⟩
    · apply takeWhile_cons_ne
      simp [h4]
    · exact fun a b l => (textType_shape h1 hsp).1
    · exact ((textType_shape (s := []) (a := 0) (b := 0) (l := 0) h1 hsp).2 _).symm

theorem step_value {simd : Bool} {n : Nav} {c : Char} {s : Str} (h : c ≠ ',' ∧ c ≠ '{' ∧ c ≠ '[' ∧ c ≠ '\n' ∧ c ≠ '\r') :
    Step simd .fieldValue n (c :: s) (.fieldValue, some (scanValue n (c :: s))) := by
  unfold scanValue
  rw [scan_eq]
  have hsp : ∀ d ∈ (c :: s).takeWhile (fun c => !(c == ',' || c == '\n' || c == '\r' || c == '{' || c == '[')),
      d ≠ ',' ∧ d ≠ '{' ∧ d ≠ '[' ∧ d ≠ '\n' ∧ d ≠ '\r' := by
    intro d hd
    have := takeWhile_stop hd
    simp only [Bool.not_eq_true', Bool.or_eq_false_iff, beq_eq_false_iff_ne] at this
    refine ⟨by simp_all, by simp_all, by simp_all, by simp_all, by simp_all⟩
  refine .inr ⟨.fieldValue, _, _, _, _, rfl, ?_, split_while _ _, ?_, ok_value _, ?_, .inl rfl⟩
  · apply takeWhile_cons_ne
    simp [h]
  · exact fun a b l => (valueType_shape hsp).1
  · exact ((valueType_shape (s := []) (a := 0) (b := 0) (l := 0) hsp).2 _).symm

theorem step_header {simd : Bool} {ctx : Ctx} {n : Nav} {s : Str} :
    Step simd ctx n ('[' :: s) (.sectionHeader, some (scanHeader n '[' s)) := by
  unfold scanHeader
  rw [scan_eq]
  have he : EndsAt ']' (s.dropWhile (fun c => !(c == ']'))) := by
    generalize hd : s.dropWhile (fun c => !(c == ']')) = d
    cases d with
    | nil => exact .inl rfl
    | cons e d =>
      have := dropWhile_head (p := fun c => !(c == ']')) (s := s) (c := e) (by rw [hd]; rfl)
      simp at this
      rw [this]
      exact .inr rfl
  refine .inr ⟨.sectionHeader, _, _, _, _, rfl, by simp, ?_, ?_, ⟨fun _ => he, nofun⟩, rfl, .inl rfl⟩
  · rw [List.cons_append, ← split_while]
  · intro a b l
    refine ⟨_, rfl, ?_, he⟩
    intro h
    have := takeWhile_stop h
    simp at this

theorem step_override {simd : Bool} {ctx : Ctx} {n : Nav} {s : Str} :
    Step simd ctx n ('{' :: s) (.styleOverride, some (scanOverride n '{' s)) := by
  unfold scanOverride
  obtain ⟨_, _, h3, h4⟩ := scanBlock_eq s 1 (move n '{') (move n '{')
  have hc := scanBlock_closes s 0 (move n '{')
  refine .inr ⟨.styleOverride, _, _, _, _, rfl, by simp, ?_, ?_, ⟨nofun, fun _ => ?_⟩, rfl, .inl h3⟩
  · show '{' :: s = '{' :: ((scanBlock 1 (move n '{') s).1 ++ (scanBlock 1 (move n '{') s).2.2)
    rw [← h4]
  · intro a b l
    refine ⟨_, rfl, ?_, hc⟩
    intro x y hxy hbal
    have := scanBlock_prefix s 1 (move n '{') (by omega) (x ++ ['}']) y (by rw [hxy]; simp)
    rw [List.count_append, List.count_append, balanced_count hbal] at this
    simp at this
    omega
  · rcases hc with h | h
    · exact .inl h
    · exact .inr h.1

theorem step_token {simd : Bool} {ctx : Ctx} {n : Nav} {c : Char} {s : Str} (hc : OkCtx ctx (c :: s)) :
    Step simd ctx n (c :: s) (token simd ctx n c s) := by
  unfold token
  by_cases h1 : c = '['
  · rw [if_pos h1, h1]; exact step_header
  rw [if_neg h1]
  by_cases h2 : c = ']' ∧ ctx = .sectionHeader
  · rw [if_pos h2, h2.1]; exact step_single (fun _ _ _ => rfl) (ok_doc _) rfl
  rw [if_neg h2]
  have hs : ctx ≠ .sectionHeader := by
    intro e
    rcases hc.1 e with h | h
    · cases h
    · cases h; exact h2 ⟨rfl, e⟩
  by_cases h3 : c = ':' ∧ ctx = .document
  · rw [if_pos h3, h3.1]; exact step_single (fun _ _ _ => rfl) (ok_value _) rfl
  rw [if_neg h3]
  by_cases h4 : c = '{'
  · rw [if_pos h4, h4]; exact step_override
  rw [if_neg h4]
  by_cases h5 : c = '}' ∧ ctx = .styleOverride
  · rw [if_pos h5, h5.1]; exact step_single (fun _ _ _ => rfl) (ok_doc _) rfl
  rw [if_neg h5]
  have ho : ctx ≠ .styleOverride := by
    intro e
    rcases hc.2 e with h | h
    · cases h
    · cases h; exact h5 ⟨rfl, e⟩
  by_cases h6 : c = ','
  · rw [if_pos h6, h6]; exact step_single (fun _ _ _ => rfl) (ok_other hs ho _) rfl
  rw [if_neg h6]
  by_cases h7 : c = '\n'
  · rw [if_pos h7, h7]; exact step_single (fun _ _ _ => .inl rfl) (ok_doc _) rfl
  rw [if_neg h7]
  by_cases h8 : c = '\r'
  · rw [if_pos h8, h8]
    cases s with
    | nil => exact .inl ⟨rfl, rfl⟩
    | cons d r =>
      show Step simd ctx n ('\r' :: d :: r) (.document, if d = '\n' then some (.newline, ['\r', d], move (move n '\r') d, r) else some (single .newline n '\r' (d :: r)))
      by_cases hd : d = '\n'
      · rw [if_pos hd, hd]
        exact .inr ⟨.document, .newline, _, _, r, rfl, by simp, rfl, fun _ _ _ => .inr (.inl rfl), ok_doc _, rfl, .inl rfl⟩
      · rw [if_neg hd]
        exact step_single (fun _ _ _ => .inr (.inr ⟨rfl, by simpa using hd⟩)) (ok_doc _) rfl
  rw [if_neg h8]
  by_cases h9 : c = ';' ∧ ctx = .document
  · rw [if_pos h9, h9.2]; exact step_comment (.inl h9.1)
  rw [if_neg h9]
  by_cases h10 : c = '!' ∧ ctx = .document
  · rw [if_pos h10, h10.2]
    by_cases hh : s.head? = some ':'
    · rw [if_pos hh]; exact step_comment (.inr ⟨h10.1, hh⟩)
    · rw [if_neg hh, h10.1]
      exact step_text (by decide) (by decide) (by decide) (by decide)
  rw [if_neg h10]
  by_cases h11 : c = '}'
  · rw [if_pos h11, h11]
    exact step_single (fun _ _ _ => by simp [Shape]) (ok_other hs ho _) rfl
  rw [if_neg h11]
  by_cases h12 : c = ']'
  · rw [if_pos h12, h12]
    exact step_single (fun _ _ _ => by simp [Shape]) (ok_other hs ho _) rfl
  rw [if_neg h12]
  by_cases h13 : ctx = .fieldValue
  · rw [if_pos h13, h13]
    exact step_value ⟨h6, h4, h1, h7, h8⟩
  rw [if_neg h13]
  have hd : ctx = .document := by cases ctx <;> simp_all
  refine step_text hs ho h13 ?_
  rw [hd] at h3 h9 ⊢
  simp only [stops]
  simp_all

/-! ### One call -/

theorem skip_eq (n : Nav) (s : Str) : ∃ g, Gap g ∧ s = g ++ (skipWhite n s).2 ∧ (skipWhite n s).1 = g.foldl move n ∧
    (∀ c, (skipWhite n s).2.head? = some c → isWs c = true → c = '\n' ∨ c = '\r') := by
  unfold skipWhite
  rw [scan_eq]
  refine ⟨_, ?_, split_while _ _, rfl, ?_⟩
  · intro c hc
    have := takeWhile_stop hc
    simp only [Bool.not_not, Bool.and_eq_true, bne_iff_ne] at this
    exact ⟨(SrtDoc.white_iff c).1 this.1.1, this.1.2, this.2⟩
  · intro c hc hw
    have := dropWhile_head hc
    simp only [Bool.not_not, hw, Bool.true_and] at this
    by_cases e : c = '\n'
    · exact .inl e
    · simp [e] at this
      exact .inr this

/-- What a call of `next_token` does. -/
def Call (simd : Bool) (st : St) (r : Res × St) : Prop :=
  ∃ g x, Gap g ∧ (st.ctx = .fieldValue → g = []) ∧ st.rest = g ++ x ∧
    ((x = [] ∧ r = (.done, ⟨g.foldl move st.nav, [], st.ctx⟩)) ∨
     (x = ['\r'] ∧ r = (.err, ⟨move (g.foldl move st.nav) '\r', [], .document⟩)) ∨
     ∃ ctx' ty sp nav rest, x ≠ [] ∧ Step simd st.ctx (g.foldl move st.nav) x (ctx', some (ty, sp, nav, rest)) ∧
       r = (.tok ⟨ty, sp, (g.foldl move st.nav).pos, (g.foldl move st.nav).line, (g.foldl move st.nav).col⟩, ⟨nav, rest, ctx'⟩))

theorem okCtx_gap {ctx : Ctx} {g x : Str} (hg : Gap g) (h : OkCtx ctx (g ++ x)) : OkCtx ctx x := by
  refine ⟨fun e => ?_, fun e => ?_⟩
  · cases g with
    | nil => exact h.1 e
    | cons a g =>
      rcases h.1 e with h1 | h1
      · cases h1
      · cases h1
        exact absurd ((SrtDoc.white_iff ']').2 (hg ']' (by simp)).1) (by decide)
  · cases g with
    | nil => exact h.2 e
    | cons a g =>
      rcases h.2 e with h1 | h1
      · cases h1
      · cases h1
        exact absurd ((SrtDoc.white_iff '}').2 (hg '}' (by simp)).1) (by decide)

theorem call_next {simd : Bool} {st : St} (h : OkCtx st.ctx st.rest) : Call simd st (next simd st) := by
  have hp : ∃ g, Gap g ∧ (st.ctx = .fieldValue → g = []) ∧
      st.rest = g ++ (if skips st.ctx then skipWhite st.nav st.rest else (st.nav, st.rest)).2 ∧
      (if skips st.ctx then skipWhite st.nav st.rest else (st.nav, st.rest)).1 = g.foldl move st.nav := by
    by_cases hs : skips st.ctx = true
    · rw [if_pos hs]
      obtain ⟨g, h1, h2, h3, _⟩ := skip_eq st.nav st.rest
      exact ⟨g, h1, (fun e => by rw [e] at hs; cases hs), h2, h3⟩
    · rw [if_neg hs]
      exact ⟨[], (by intro c hc; cases hc), fun _ => rfl, rfl, rfl⟩
  obtain ⟨g, h1, h2, h3, h4⟩ := hp
  generalize hq : (if skips st.ctx then skipWhite st.nav st.rest else (st.nav, st.rest)) = q at h3 h4
  obtain ⟨n, x⟩ := q
  simp only at h3 h4
  refine ⟨g, x, h1, h2, h3, ?_⟩
  unfold next
  rw [hq]
  cases x with
  | nil => exact .inl ⟨rfl, by rw [← h4]⟩
  | cons c s =>
    rw [h3] at h
    rcases step_token (simd := simd) (n := n) (okCtx_gap h1 h) with ⟨h5, h6⟩ | ⟨ctx', ty, sp, nav, rest, h5, h6, h7⟩
    · refine .inr (.inl ⟨h5, ?_⟩)
      simp only [h6]
      rw [h4]
      cases h5
      rfl
    · refine .inr (.inr ⟨ctx', ty, sp, nav, rest, by simp, ?_, ?_⟩)
      · rw [← h4, ← h5]
        exact .inr ⟨ctx', ty, sp, nav, rest, h5, h6, h7⟩
      · simp only [h5]
        rw [if_neg (fun h => h6 h.1), h4]

/-! ### All calls -/

/-- The state after `k` calls from `st`. -/
def iter (simd : Bool) (st : St) : Nat → St
  | 0 => st
  | k + 1 => iter simd (next simd st).2 k

theorem iter_next (simd : Bool) : ∀ (k : Nat) (st : St), (next simd (iter simd st k)).2 = iter simd st (k + 1)
  | 0, st => rfl
  | k + 1, st => iter_next simd k _

theorem after_eq (simd : Bool) (src : Str) : ∀ k, after simd src k = iter simd (init src) k
  | 0 => rfl
  | k + 1 => by rw [after, after_eq simd src k, iter_next]

theorem done_iter {simd : Bool} : ∀ (k : Nat) {st : St}, st.rest = [] → OkCtx st.ctx st.rest → (next simd (iter simd st k)).1 = .done
  | 0, st, h, hk => by
    obtain ⟨g, x, _, _, h3, h4⟩ := call_next (simd := simd) hk
    rw [h] at h3
    have hx : x = [] := (List.append_eq_nil_iff.1 h3.symm).2
    rcases h4 with ⟨_, h5⟩ | ⟨h5, _⟩ | ⟨_, _, _, _, _, h5, _⟩
    · show (next simd st).1 = _
      rw [h5]
    · rw [hx] at h5; cases h5
    · exact absurd hx h5
  | k + 1, st, h, hk => by
    show (next simd (iter simd (next simd st).2 k)).1 = _
    obtain ⟨g, x, _, _, h3, h4⟩ := call_next (simd := simd) hk
    rw [h] at h3
    have hx : x = [] := (List.append_eq_nil_iff.1 h3.symm).2
    rcases h4 with ⟨_, h5⟩ | ⟨h5, _⟩ | ⟨_, _, _, _, _, h5, _⟩
    · rw [h5]
      exact done_iter k rfl (by rw [h] at hk; exact hk)
    · rw [hx] at h5; cases h5
    · exact absurd hx h5

/-- The tokens from a state on. -/
theorem run {simd : Bool} : ∀ (m : Nat) {st : St}, st.rest.length ≤ m → OkCtx st.ctx st.rest → ∃ ts : List Tok,
    (∀ k t, ts[k]? = some t → (next simd (iter simd st k)).1 = .tok t) ∧
    (((∀ k, ts.length ≤ k → (next simd (iter simd st k)).1 = .done) ∧ Laid (decide (st.ctx = .fieldValue)) st.nav.pos st.rest ts) ∨
     ((next simd (iter simd st ts.length)).1 = .err ∧ (∀ k, ts.length < k → (next simd (iter simd st k)).1 = .done) ∧
       ∃ s, st.rest = s ++ ['\r'] ∧ Laid (decide (st.ctx = .fieldValue)) st.nav.pos s ts))
  | m, st, hm, hk => by
    obtain ⟨g, x, h1, h2, h3, h4⟩ := call_next (simd := simd) hk
    have hv : decide (st.ctx = .fieldValue) = true → g = [] := fun h => h2 (of_decide_eq_true h)
    rcases h4 with ⟨h5, h6⟩ | ⟨h5, h6⟩ | ⟨ctx', ty, sp, nav, rest, h5, h6, h7⟩
    · refine ⟨[], (by intro k t h; cases h), .inl ⟨?_, ?_⟩⟩
      · intro k _
        cases k with
        | zero => show (next simd st).1 = _; rw [h6]
        | succ k =>
          show (next simd (iter simd (next simd st).2 k)).1 = _
          rw [h6]
          refine done_iter k rfl ?_
          have := okCtx_gap h1 (h3 ▸ hk)
          rw [h5] at this
          exact this
      · rw [h3, h5, List.append_nil]
        exact .nil h1 hv
    · refine ⟨[], (by intro k t h; cases h), .inr ⟨?_, ?_, g, by rw [h3, h5], .nil h1 hv⟩⟩
      · show (next simd st).1 = _; rw [h6]
      · intro k hk'
        cases k with
        | zero => cases hk'
        | succ k =>
          show (next simd (iter simd (next simd st).2 k)).1 = _
          rw [h6]
          exact done_iter k rfl (ok_doc _)
    · rcases h6 with ⟨_, h8⟩ | ⟨ctx2, ty2, sp2, nav2, rest2, h8, h9, h10, _, h12, h13, h14⟩
      · simp at h8
      · simp only [Prod.mk.injEq, Option.some.injEq] at h8
        obtain ⟨rfl, rfl, rfl, rfl, rfl⟩ := h8
        have hl : rest.length < st.rest.length := by
          rw [h3, h10]
          have := List.length_pos_iff.2 h9
          simp only [List.length_append]
          omega
        have hpos : nav.pos = (st.nav.pos + size g) + size sp := by
          rcases h14 with h14 | ⟨_, _, h14⟩
          · rw [h14, moves_pos, moves_pos]
          · rw [h14, moves_pos]
        cases m with
        | zero => omega
        | succ m =>
          obtain ⟨ts, h15, h16⟩ := run (simd := simd) m (st := ⟨nav, rest, ctx'⟩) (by simp only; omega) h12
          refine ⟨⟨ty, sp, (g.foldl move st.nav).pos, (g.foldl move st.nav).line, (g.foldl move st.nav).col⟩ :: ts, ?_, ?_⟩
          · intro k t ht
            cases k with
            | zero => cases ht; show (next simd st).1 = _; rw [h7]
            | succ k =>
              show (next simd (iter simd (next simd st).2 k)).1 = _
              rw [h7]
              exact h15 k t ht
          · simp only at h16
            rw [h13, hpos] at h16
            rcases h16 with ⟨h17, h18⟩ | ⟨h17, h18, s, h19, h20⟩
            · refine .inl ⟨?_, ?_⟩
              · intro k hk'
                cases k with
                | zero => simp at hk'
                | succ k =>
                  show (next simd (iter simd (next simd st).2 k)).1 = _
                  rw [h7]
                  exact h17 k (by simpa using hk')
              · rw [h3, h10, ← List.append_assoc]
                exact Laid.cons (t := ⟨ty, sp, (g.foldl move st.nav).pos, (g.foldl move st.nav).line, (g.foldl move st.nav).col⟩) h1 hv h9 (moves_pos _ _) h18
            · refine .inr ⟨?_, ?_, g ++ sp ++ s, ?_, ?_⟩
              · show (next simd (iter simd (next simd st).2 ts.length)).1 = _
                rw [h7]
                exact h17
              · intro k hk'
                cases k with
                | zero => cases hk'
                | succ k =>
                  show (next simd (iter simd (next simd st).2 k)).1 = _
                  rw [h7]
                  exact h18 k (by simpa using hk')
              · rw [h3, h10, h19]; simp
              · exact Laid.cons (t := ⟨ty, sp, (g.foldl move st.nav).pos, (g.foldl move st.nav).line, (g.foldl move st.nav).col⟩) h1 hv h9 (moves_pos _ _) h20

/-! ### Lines and columns -/

theorem breaks_append : ∀ (a b : List Char) (cr : Bool),
    breaks cr (a ++ b) = breaks cr a + breaks (if a = [] then cr else decide (a.getLast? = some '\r')) b
  | [], b, cr => by simp [breaks]
  | c :: a, b, cr => by
    rw [List.cons_append, breaks, breaks, breaks_append a b, Nat.add_assoc]
    congr 3
    cases a with
    | nil => simp
    | cons d a => simp

theorem move_line (n : Nav) (c : Char) : (move n c).line = n.line + (if c = '\r' ∨ (c = '\n' ∧ decide (n.last = some '\r') = false) then 1 else 0) ∧
    (move n c).last = some c ∧ (1 ≤ n.col → 1 ≤ (move n c).col ∧ (move n c).col - 1 = (if c = '\r' ∨ c = '\n' then 0 else n.col - 1 + 1)) := by
  unfold move
  by_cases h1 : c = '\r'
  · rw [if_pos h1]
    simp [h1]
  · rw [if_neg h1]
    by_cases h2 : c = '\n'
    · rw [if_pos h2]
      subst h2
      by_cases h3 : n.last = some '\r' <;> simp [h3]
    · rw [if_neg h2]
      simp only [h1, h2, false_or, false_and, if_false]
      exact ⟨rfl, trivial, fun h => ⟨by omega, by omega⟩⟩

theorem moves_line : ∀ (l : Str) (n : Nav), (l.foldl move n).line = n.line + breaks (decide (n.last = some '\r')) l ∧
    (l.foldl move n).last = (if l = [] then n.last else l.getLast?) ∧ (1 ≤ n.col → (l.foldl move n).col = 1 + tailLen (n.col - 1) l)
  | [], n => ⟨rfl, rfl, fun h => by simp [tailLen]; omega⟩
  | c :: l, n => by
    obtain ⟨h1, h2, h3⟩ := moves_line l (move n c)
    obtain ⟨h4, h5, h6⟩ := move_line n c
    rw [List.foldl_cons]
    refine ⟨?_, ?_, ?_⟩
    · rw [h1, h4, breaks, h5, Nat.add_assoc]
      simp
    · rw [h2, h5]
      cases l with
      | nil => rfl
      | cons d l => simp
    · intro hc
      obtain ⟨h7, h8⟩ := h6 hc
      rw [h3 h7, h8, tailLen]
      by_cases hh : c = '\r' ∨ c = '\n'
      · rw [if_pos hh, if_pos hh]
      · rw [if_neg hh, if_neg hh]

/-- The place is where the text passed says. -/
def Track (simd : Bool) (src pre : Str) (n : Nav) : Prop :=
  (simd = false → n.line = 1 + breaks false pre ∧ n.last = pre.getLast? ∧ n.col = 1 + tailLen 0 pre) ∧
  (CrLf src → n.line = 1 + breaks false pre ∧ (n.last = some '\r' ↔ pre.getLast? = some '\r'))

theorem tailLen_append : ∀ (a b : List Char) (n : Nat), tailLen n (a ++ b) = tailLen (tailLen n a) b
  | [], _, _ => rfl
  | c :: a, b, n => by
    rw [List.cons_append, tailLen, tailLen]
    split <;> exact tailLen_append a b _

theorem breaks_last (pre x : Str) : breaks false (pre ++ x) = breaks false pre + breaks (decide (pre.getLast? = some '\r')) x := by
  rw [breaks_append]
  cases pre with
  | nil => simp
  | cons a p => simp

theorem track_moves {simd : Bool} {src pre x : Str} {n : Nav} (h : Track simd src pre n) : Track simd src (pre ++ x) (x.foldl move n) := by
  obtain ⟨h1, h2, h3⟩ := moves_line x n
  refine ⟨fun hs => ?_, fun hc => ?_⟩
  · obtain ⟨h4, h5, h6⟩ := h.1 hs
    refine ⟨?_, ?_, ?_⟩
    · rw [h1, h4, h5, breaks_last, Nat.add_assoc]
    · rw [h2, h5]
      cases x with
      | nil => simp
      | cons c x => rw [if_neg (List.cons_ne_nil _ _), List.getLast?_append, List.getLast?_cons]; rfl
    · rw [h3 (by omega), h6, tailLen_append]
      congr 2
      omega
  · obtain ⟨h4, h5⟩ := h.2 hc
    refine ⟨?_, ?_⟩
    · rw [h1, h4, breaks_last, Nat.add_assoc]
      congr 3
      exact decide_eq_decide.2 h5
    · rw [h2]
      cases x with
      | nil => simpa using h5
      | cons c x => rw [if_neg (List.cons_ne_nil _ _), List.getLast?_append, List.getLast?_cons]; exact Iff.rfl

theorem breaks_none : ∀ {x : Str} {cr : Bool}, (∀ c ∈ x, c ≠ '\n' ∧ c ≠ '\r') → breaks cr x = 0
  | [], _, _ => rfl
  | c :: x, cr, h => by
    have := h c (by simp)
    rw [breaks, breaks_none (fun d hd => h d (by simp [hd])), if_neg (by simp [this])]

theorem track_jump {src pre x rest : Str} {n : Nav} (h : Track true src pre n) (hs : src = pre ++ x ++ rest) (hx : x ≠ [])
    (hb : ∀ c ∈ x, c ≠ '\n' ∧ c ≠ '\r') (p : Nat) : Track true src (pre ++ x) ⟨p, n.line, n.col, n.last⟩ := by
  refine ⟨nofun, fun hc => ?_⟩
  obtain ⟨h4, h5⟩ := h.2 hc
  have h6 : pre.getLast? ≠ some '\r' := by
    intro e
    obtain ⟨q, hq⟩ := List.getLast?_eq_some_iff.1 e
    have := hc q (x ++ rest) (by rw [hs, hq]; simp)
    cases x with
    | nil => exact hx rfl
    | cons c x =>
      cases this
      exact (hb '\n' (by simp)).1 rfl
  refine ⟨?_, ?_⟩
  · rw [breaks_last, breaks_none hb]; exact h4
  · show n.last = some '\r' ↔ _
    have h7 : n.last ≠ some '\r' := fun e => h6 (h5.1 e)
    have h8 : (pre ++ x).getLast? ≠ some '\r' := by
      intro e
      rw [List.getLast?_append] at e
      cases hl : x.getLast? with
      | none => exact hx (List.getLast?_eq_none_iff.1 hl)
      | some c =>
        rw [hl] at e
        cases e
        exact (hb '\r' (List.mem_of_getLast? hl)).2 rfl
    exact ⟨fun e => absurd e h7, fun e => absurd e h8⟩

/-- What holds between two calls. -/
def Inv (simd : Bool) (src : Str) (st : St) : Prop :=
  ∃ pre, body src = pre ++ st.rest ∧ st.nav.pos = skipped src + size pre ∧ OkCtx st.ctx st.rest ∧ Track simd (body src) pre st.nav

theorem inv_init (simd : Bool) (src : Str) : Inv simd src (init src) := by
  have ht : ∀ p : Nat, Track simd (body src) [] ⟨p, 1, 1, none⟩ := fun p => ⟨fun _ => ⟨rfl, rfl, rfl⟩, fun _ => ⟨rfl, by simp⟩⟩
  cases src with
  | nil => exact ⟨[], rfl, rfl, ok_doc _, ht _⟩
  | cons c s =>
    have hc : (c = Char.ofNat 0xFEFF) ↔ c.toNat = 0xFEFF := by
      constructor
      · intro h; rw [h]; rfl
      · intro h; rw [← h]; exact (Char.ofNat_toNat c).symm
    by_cases h : c.toNat = 0xFEFF
    · refine ⟨[], ?_, ?_, ?_, ?_⟩
      · rw [body, if_pos h, init, if_pos (hc.2 h)]; rfl
      · rw [skipped, if_pos h, init, if_pos (hc.2 h)]; rfl
      · rw [init, if_pos (hc.2 h)]; exact ok_doc _
      · rw [init, if_pos (hc.2 h)]; exact ht _
    · have h' : ¬ c = Char.ofNat 0xFEFF := fun e => h (hc.1 e)
      refine ⟨[], ?_, ?_, ?_, ?_⟩
      · rw [body, if_neg h, init, if_neg h']; rfl
      · rw [skipped, if_neg h, init, if_neg h']; rfl
      · rw [init, if_neg h']; exact ok_doc _
      · rw [init, if_neg h']; exact ht _

theorem inv_next {simd : Bool} {src : Str} {st : St} (h : Inv simd src st) : Inv simd src (next simd st).2 ∧
    ∀ t, (next simd st).1 = .tok t → ∃ a s, body src = a ++ t.span ++ s ∧ t.start = skipped src + size a ∧ Shape t s ∧ t.span ≠ [] ∧
      (simd = false → t.line = 1 + breaks false a ∧ t.col = 1 + tailLen 0 a) ∧ (CrLf (body src) → t.line = 1 + breaks false a) := by
  obtain ⟨pre, h1, h2, h3, h4⟩ := h
  obtain ⟨g, x, h5, _, h6, h7⟩ := call_next (simd := simd) h3
  have ht : Track simd (body src) (pre ++ g) (g.foldl move st.nav) := track_moves h4
  have hp : (g.foldl move st.nav).pos = skipped src + size (pre ++ g) := by
    rw [moves_pos, h2, Incremental.size_append]; omega
  rcases h7 with ⟨h8, h9⟩ | ⟨h8, h9⟩ | ⟨ctx', ty, sp, nav, rest, h8, h9, h10⟩
  · rw [h9]
    refine ⟨⟨pre ++ g, ?_, hp, ?_, ht⟩, nofun⟩
    · rw [h1, h6, h8]; simp
    · have := okCtx_gap h5 (h6 ▸ h3)
      rw [h8] at this
      exact this
  · rw [h9]
    refine ⟨⟨pre ++ g ++ ['\r'], ?_, ?_, ok_doc _, track_moves ht⟩, nofun⟩
    · rw [h1, h6, h8]; simp
    · show (move _ _).pos = _
      rw [move_pos, hp, Incremental.size_append (pre ++ g)]; rfl
  · rw [h10]
    rcases h9 with ⟨_, h11⟩ | ⟨ctx2, ty2, sp2, nav2, rest2, h11, h12, h13, h14, h15, _, h17⟩
    · simp at h11
    · simp only [Prod.mk.injEq, Option.some.injEq] at h11
      obtain ⟨rfl, rfl, rfl, rfl, rfl⟩ := h11
      have hb : body src = pre ++ g ++ sp ++ rest := by rw [h1, h6, h13]; simp
      refine ⟨⟨pre ++ g ++ sp, hb, ?_, h15, ?_⟩, ?_⟩
      · rw [Incremental.size_append (pre ++ g)]
        rcases h17 with h17 | ⟨_, _, h17⟩
        · show nav.pos = _
          rw [h17, moves_pos, hp]; omega
        · show nav.pos = _
          rw [h17]
          show _ + _ = _
          rw [hp]; omega
      · show Track simd _ _ nav
        rcases h17 with h17 | ⟨hs, h18, h17⟩
        · rw [h17]; exact track_moves ht
        · rw [h17]
          subst hs
          exact track_jump ht hb h12 h18 _
      · intro t e
        cases e
        exact ⟨pre ++ g, rest, hb, hp, h14 _ _ _, h12, fun hs => ⟨(ht.1 hs).1, (ht.1 hs).2.2⟩, fun hc => (ht.2 hc).1⟩

theorem inv_after (simd : Bool) (src : Str) : ∀ k, Inv simd src (after simd src k)
  | 0 => inv_init simd src
  | k + 1 => (inv_next (inv_after simd src k)).1

/-! ### The two ways of scanning -/

/-- The outcome of a step without the place. -/
def bare (r : Ctx × Option (Ty × Str × Nav × Str)) : Ctx × Option (Ty × Str × Str) := (r.1, r.2.map (fun x => (x.1, x.2.1, x.2.2.2)))

theorem bare_scan (stop : Char → Bool) (n n' : Nav) (s : Str) : (scan stop n s).1 = (scan stop n' s).1 ∧ (scan stop n s).2.2 = (scan stop n' s).2.2 := by
  rw [scan_eq, scan_eq]; exact ⟨rfl, rfl⟩

theorem takeWhile_congr {p q : Char → Bool} : ∀ {s : Str}, (∀ c ∈ s, p c = q c) → s.takeWhile p = s.takeWhile q ∧ s.dropWhile p = s.dropWhile q
  | [], _ => ⟨rfl, rfl⟩
  | c :: s, h => by
    obtain ⟨h1, h2⟩ := takeWhile_congr (s := s) (fun d hd => h d (by simp [hd]))
    rw [List.takeWhile_cons, List.takeWhile_cons, List.dropWhile_cons, List.dropWhile_cons, h c (by simp), h1, h2]
    exact ⟨rfl, rfl⟩

theorem bare_text {n n' : Nav} {ctx : Ctx} {s : Str} (h : ';' ∉ s) :
    (scanText true ctx n s).1 = (scanText false ctx n' s).1 ∧ (scanText true ctx n s).2.1 = (scanText false ctx n' s).2.1 ∧
    (scanText true ctx n s).2.2.2 = (scanText false ctx n' s).2.2.2 := by
  unfold scanText
  simp only [Bool.true_and, Bool.false_and, Bool.false_eq_true, if_false]
  by_cases hc : ctx = .fieldValue
  · rw [hc, if_neg (by decide), scan_eq, scan_eq]
    exact ⟨rfl, rfl, rfl⟩
  · rw [if_pos (by simp [hc]), scan_eq]
    have : ∀ c ∈ s, (!isDelim c) = (!stops ctx c) := by
      intro c hm
      have : c ≠ ';' := fun e => h (e ▸ hm)
      unfold isDelim stops
      rw [if_neg hc]
      have e : (c == ';') = false := by simp [this]
      rw [e]
      simp only [Bool.false_and, Bool.or_false]
      congr 7
      rw [Bool.or_comm]
    obtain ⟨h1, h2⟩ := takeWhile_congr this
    unfold jump
    simp only [h1, h2]
    exact ⟨trivial, trivial, trivial⟩

theorem bare_ite {P : Prop} [Decidable P] {a b a' b' : Ctx × Option (Ty × Str × Nav × Str)} (h1 : bare a = bare a') (h2 : bare b = bare b') :
    bare (if P then a else b) = bare (if P then a' else b') := by
  by_cases h : P
  · rw [if_pos h, if_pos h, h1]
  · rw [if_neg h, if_neg h, h2]

theorem bare_token {n n' : Nav} {ctx : Ctx} {c : Char} {s : Str} (h : ';' ∉ c :: s) :
    bare (token true ctx n c s) = bare (token false ctx n' c s) := by
  have ht : bare (ctx, some (scanText true ctx n (c :: s))) = bare (ctx, some (scanText false ctx n' (c :: s))) := by
    obtain ⟨h1, h2, h3⟩ := bare_text (n := n) (n' := n') (ctx := ctx) h
    simp only [bare, Option.map_some, h1, h2, h3]
  have hcm : bare (ctx, some (scanComment n (c :: s))) = bare (ctx, some (scanComment n' (c :: s))) := by
    obtain ⟨h1, h2⟩ := bare_scan (fun c => c == '\n' || c == '\r') n n' (c :: s)
    simp only [bare, Option.map_some, scanComment, h1, h2]
  have hv : bare (ctx, some (scanValue n (c :: s))) = bare (ctx, some (scanValue n' (c :: s))) := by
    obtain ⟨h1, h2⟩ := bare_scan (fun c => c == ',' || c == '\n' || c == '\r' || c == '{' || c == '[') n n' (c :: s)
    simp only [bare, Option.map_some, scanValue, h1, h2]
  unfold token
  refine bare_ite ?_ (bare_ite rfl (bare_ite rfl (bare_ite ?_ (bare_ite rfl (bare_ite rfl (bare_ite rfl (bare_ite ?_ (bare_ite hcm (bare_ite ?_
    (bare_ite rfl (bare_ite rfl (bare_ite hv ht))))))))))))
  · obtain ⟨h1, h2⟩ := bare_scan (fun c => c == ']') (move n c) (move n' c) s
    simp only [bare, Option.map_some, scanHeader, h1, h2]
  · obtain ⟨h1, h2, _⟩ := scanBlock_eq s 1 (move n c) (move n' c)
    simp only [bare, Option.map_some, scanOverride, h1, h2]
  · cases s with
    | nil => rfl
    | cons d r =>
      by_cases hd : d = '\n' <;> simp only [hd, if_true, if_false] <;> rfl
  · by_cases hh : s.head? = some ':'
    · rw [if_pos hh, if_pos hh]; exact hcm
    · rw [if_neg hh, if_neg hh]; exact ht

/-- A token without line and column. -/
def bareRes : Res → Option (Option (Ty × Str × Nat))
  | .tok t => some (some (t.ty, t.span, t.start))
  | .done => some none
  | .err => none

/-- Two states at the same place. -/
def Same (a b : St) : Prop := a.rest = b.rest ∧ a.ctx = b.ctx ∧ a.nav.pos = b.nav.pos

theorem skip_same {n n' : Nav} (s : Str) (h : n.pos = n'.pos) : (skipWhite n s).2 = (skipWhite n' s).2 ∧ (skipWhite n s).1.pos = (skipWhite n' s).1.pos := by
  unfold skipWhite
  rw [scan_eq, scan_eq]
  refine ⟨rfl, ?_⟩
  simp only
  rw [moves_pos, moves_pos, h]

theorem step_pos {simd : Bool} {ctx ctx' : Ctx} {n : Nav} {x : Str} {ty : Ty} {sp : Str} {nav : Nav} {rest : Str}
    (h : Step simd ctx n x (ctx', some (ty, sp, nav, rest))) : nav.pos = n.pos + size sp ∧ x = sp ++ rest := by
  rcases h with ⟨_, h⟩ | ⟨_, _, _, _, _, h1, _, h3, _, _, _, h4⟩
  · simp at h
  · simp only [Prod.mk.injEq, Option.some.injEq] at h1
    obtain ⟨rfl, rfl, rfl, rfl, rfl⟩ := h1
    refine ⟨?_, h3⟩
    rcases h4 with h4 | ⟨_, _, h4⟩
    · rw [h4, moves_pos]
    · rw [h4]

theorem same_next {a b : St} (h : Same a b) (hk : OkCtx a.ctx a.rest) (hs : ';' ∉ a.rest) :
    bareRes (next true a).1 = bareRes (next false b).1 ∧ Same (next true a).2 (next false b).2 ∧ ';' ∉ (next true a).2.rest := by
  obtain ⟨na, ra, ca⟩ := a
  obtain ⟨nb, rb, cb⟩ := b
  obtain ⟨h1, h2, h3⟩ := h
  simp only at h1 h2 h3 hk hs
  subst h1 h2
  unfold next
  simp only
  have hq : (if skips ca then skipWhite na ra else (na, ra)).2 = (if skips ca then skipWhite nb ra else (nb, ra)).2 ∧
      (if skips ca then skipWhite na ra else (na, ra)).1.pos = (if skips ca then skipWhite nb ra else (nb, ra)).1.pos ∧
      (∃ g, Gap g ∧ ra = g ++ (if skips ca then skipWhite na ra else (na, ra)).2) := by
    by_cases hc : skips ca = true
    · rw [if_pos hc, if_pos hc]
      obtain ⟨g, hg, hr, _⟩ := skip_eq na ra
      exact ⟨(skip_same ra h3).1, (skip_same ra h3).2, g, hg, hr⟩
    · rw [if_neg hc, if_neg hc]
      exact ⟨rfl, h3, [], (by intro c hc; cases hc), rfl⟩
  generalize (if skips ca then skipWhite na ra else (na, ra)) = p at hq
  generalize (if skips ca then skipWhite nb ra else (nb, ra)) = q at hq
  obtain ⟨pn, px⟩ := p
  obtain ⟨qn, qx⟩ := q
  simp only at hq
  obtain ⟨rfl, hq2, g, hg, hq3⟩ := hq
  cases px with
  | nil => exact ⟨rfl, ⟨rfl, rfl, hq2⟩, by simp⟩
  | cons c s =>
    have hcs : ';' ∉ c :: s := fun e => hs (by rw [hq3]; exact List.mem_append_right _ e)
    have hok : OkCtx ca (c :: s) := okCtx_gap hg (hq3 ▸ hk)
    have hb := bare_token (n := pn) (n' := qn) (ctx := ca) hcs
    have s1 := step_token (simd := true) (n := pn) hok
    have s2 := step_token (simd := false) (n := qn) hok
    cases t1 : token true ca pn c s with
    | mk c1 o1 =>
      cases t2 : token false ca qn c s with
      | mk c2 o2 =>
        rw [t1, t2] at hb
        rw [t1] at s1
        rw [t2] at s2
        unfold bare at hb
        rw [Prod.mk.injEq] at hb
        simp only at hb
        obtain ⟨rfl, hb⟩ := hb
        simp only [t1, t2]
        cases o1 with
        | none =>
          cases o2 with
          | none => exact ⟨rfl, ⟨rfl, rfl, by simp only [move_pos]; rw [hq2]⟩, by simp⟩
          | some y => cases hb
        | some x =>
          cases o2 with
          | none => cases hb
          | some y =>
            obtain ⟨ty, sp, nav, rest⟩ := x
            obtain ⟨ty', sp', nav', rest'⟩ := y
            simp only [Option.map_some, Option.some.injEq, Prod.mk.injEq] at hb
            obtain ⟨rfl, rfl, rfl⟩ := hb
            obtain ⟨p1, p2⟩ := step_pos s1
            obtain ⟨p3, _⟩ := step_pos s2
            have hr : ';' ∉ rest := fun e => hcs (by rw [p2]; exact List.mem_append_right _ e)
            simp only
            by_cases he : sp = [] ∧ rest ≠ []
            · rw [if_pos he, if_pos he]
              exact ⟨rfl, ⟨rfl, rfl, by rw [p1, p3, hq2]⟩, hr⟩
            · rw [if_neg he, if_neg he]
              exact ⟨by simp only [bareRes, hq2], ⟨rfl, rfl, by rw [p1, p3, hq2]⟩, hr⟩

theorem same_after {src : Str} (h : ';' ∉ src) : ∀ k, Same (after true src k) (after false src k) ∧ ';' ∉ (after true src k).rest
  | 0 => by
    refine ⟨⟨rfl, rfl, rfl⟩, ?_⟩
    show ';' ∉ (init src).rest
    cases src with
    | nil => exact h
    | cons c s =>
      rw [init]
      split
      · exact fun e => h (by simp [e])
      · exact h
  | k + 1 => by
    obtain ⟨h1, h2⟩ := same_after h k
    obtain ⟨_, _, _, h3, _⟩ := inv_after true src k
    obtain ⟨_, h4, h5⟩ := same_next h1 h3 h2
    exact ⟨h4, h5⟩

end Verif.Tokenizer
