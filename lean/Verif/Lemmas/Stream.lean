import Verif.Spec.Stream
import Verif.Lemmas.StrX
import Verif.Lemmas.Handlers
namespace Verif.Stream
open Verif Verif.Spec.Stream

/-! ## UTF-8 -/

theorem decodeOne_enc (c : Char) (r : List Nat) : decodeOne (utf8Enc c ++ r) = some (c, r) := by
  have hc : Char.ofNat c.toNat = c := Char.ofNat_toNat c
  have key : ∀ (n len b0 : Nat) (e : List Nat), n = c.toNat → b0 :: e = utf8Enc c → e.length + 1 = len → leading b0 (e ++ r) = (len, n) →
      decodeOne (utf8Enc c ++ r) = some (c, r) := by
    intro n len b0 e h1 h2 h3 h4
    have h5 : len = (utf8Enc c).length := by rw [← h2, ← h3]; rfl
    rw [← h2, List.cons_append, decodeOne, h4, ← List.cons_append, h2]
    unfold decodeAs
    simp only
    rw [h1, hc, h5, List.take_left, List.drop_left, if_pos rfl]
  by_cases h1 : c.toNat < 0x80
  · have e : utf8Enc c = [c.toNat] := by unfold utf8Enc; simp only; rw [if_pos h1]
    refine key c.toNat 1 c.toNat [] rfl e.symm rfl ?_
    unfold leading
    rw [if_pos h1]
  · by_cases h2 : c.toNat < 0x800
    · have e : utf8Enc c = [0xC0 + c.toNat / 64, 0x80 + c.toNat % 64] := by
        unfold utf8Enc; simp only; rw [if_neg h1, if_pos h2]
      refine key ((0xC0 + c.toNat / 64 - 0xC0) * 64 + (0x80 + c.toNat % 64 - 0x80)) 2 _ _ (by omega) e.symm rfl ?_
      unfold leading
      rw [if_neg (by omega), if_pos (by omega)]
      rfl
    · by_cases h3 : c.toNat < 0x10000
      · have e : utf8Enc c = [0xE0 + c.toNat / 4096, 0x80 + c.toNat / 64 % 64, 0x80 + c.toNat % 64] := by
          unfold utf8Enc; simp only; rw [if_neg h1, if_neg h2, if_pos h3]
        refine key ((0xE0 + c.toNat / 4096 - 0xE0) * 4096 + (0x80 + c.toNat / 64 % 64 - 0x80) * 64 + (0x80 + c.toNat % 64 - 0x80)) 3 _ _
          (by omega) e.symm rfl ?_
        unfold leading
        rw [if_neg (by omega), if_neg (by omega), if_pos (by omega)]
        rfl
      · have e : utf8Enc c = [0xF0 + c.toNat / 262144, 0x80 + c.toNat / 4096 % 64, 0x80 + c.toNat / 64 % 64, 0x80 + c.toNat % 64] := by
          unfold utf8Enc; simp only; rw [if_neg h1, if_neg h2, if_neg h3]
        refine key ((0xF0 + c.toNat / 262144 - 0xF0) * 262144 + (0x80 + c.toNat / 4096 % 64 - 0x80) * 4096 +
          (0x80 + c.toNat / 64 % 64 - 0x80) * 64 + (0x80 + c.toNat % 64 - 0x80)) 4 _ _ (by omega) e.symm rfl ?_
        unfold leading
        rw [if_neg (by omega), if_neg (by omega), if_neg (by omega)]
        rfl

theorem enc_ne (c : Char) : utf8Enc c ≠ [] := by
  unfold utf8Enc
  simp only
  split
  · simp
  · split
    · simp
    · split <;> simp

theorem decodeAux_utf8 (s : Str) : ∀ k, (utf8 s).length ≤ k → decodeAux k (utf8 s) = some s := by
  induction s with
  | nil => intro k _; cases k <;> rfl
  | cons c s ih =>
    intro k hk
    have e : utf8 (c :: s) = utf8Enc c ++ utf8 s := by unfold utf8; rw [List.flatMap_cons]
    have hne := enc_ne c
    have hl : 0 < (utf8Enc c).length := List.length_pos_iff.2 hne
    rw [e, List.length_append] at hk
    cases k with
    | zero => omega
    | succ k =>
      rw [e]
      cases hb : utf8Enc c ++ utf8 s with
      | nil => simp [hne] at hb
      | cons b0 r =>
        rw [decodeAux, ← hb, decodeOne_enc]
        simp only
        rw [ih k (by omega)]
        rfl
        simp

theorem decode_utf8 (s : Str) : decode (utf8 s) = some s := decodeAux_utf8 s _ (Nat.le_refl _)

theorem decodeOne_sound {b : List Nat} {c : Char} {r : List Nat} (h : decodeOne b = some (c, r)) : b = utf8Enc c ++ r := by
  cases b with
  | nil => cases h
  | cons b0 t =>
    rw [decodeOne, decodeAs] at h
    by_cases he : utf8Enc (Char.ofNat (leading b0 t).2) = (b0 :: t).take (leading b0 t).1
    · rw [if_pos he] at h
      injection h with h
      injection h with h1 h2
      rw [← h1, ← h2, he, List.take_append_drop]
    · rw [if_neg he] at h; cases h

theorem decodeAux_sound (k : Nat) : ∀ {b : List Nat} {s : Str}, decodeAux k b = some s → utf8 s = b := by
  induction k with
  | zero =>
    intro b s h
    cases b with
    | nil => injection h with h; subst h; rfl
    | cons => cases h
  | succ k ih =>
    intro b s h
    cases b with
    | nil => injection h with h; subst h; rfl
    | cons b0 t =>
      rw [decodeAux] at h
      · cases hd : decodeOne (b0 :: t) with
        | none => rw [hd] at h; cases h
        | some p =>
          obtain ⟨c, r⟩ := p
          rw [hd] at h
          simp only at h
          cases hr : decodeAux k r with
          | none => rw [hr] at h; cases h
          | some s' =>
            rw [hr] at h
            injection h with h
            subst h
            rw [decodeOne_sound hd, ← ih hr]
            unfold utf8
            rw [List.flatMap_cons]
      · simp

theorem decode_sound {b : List Nat} {s : Str} (h : decode b = some s) : utf8 s = b := decodeAux_sound _ h

/-! ## Lines -/

theorem stripCr_eq (l : Str) : stripCr l = withoutCr l := rfl

theorem cut_exists (text : Str) : ∃ ls r, Cut text ls r := by
  induction text with
  | nil => exact ⟨[], [], .rest [] (by simp)⟩
  | cons c s ih =>
    obtain ⟨ls, r, h⟩ := ih
    by_cases hc : c = '\n'
    · subst hc
      exact ⟨_, _, .line [] s ls r (by simp) h⟩
    · cases h with
      | rest _ h => exact ⟨[], c :: s, .rest _ (by simp [h, Ne.symm hc])⟩
      | line l t ls r h hs => exact ⟨_, _, .line (c :: l) t ls r (by simp [h, Ne.symm hc]) hs⟩

theorem cut_rest {text : Str} {ls : List Str} {r : Str} (h : Cut text ls r) : '\n' ∉ r := by
  induction h with
  | rest _ h => exact h
  | line _ _ _ _ _ _ ih => exact ih

theorem cut_lines {text : Str} {ls : List Str} {r : Str} (h : Cut text ls r) : lines text = ls ++ (if r = [] then [] else [r]) := by
  induction h with
  | rest r h =>
    by_cases hr : r = []
    · subst hr; rfl
    · rw [if_neg hr, lines_last h hr]; rfl
  | line l t ls r hl _ ih =>
    rw [lines_append l hl, ih]; rfl

/-- The end of the text is that of the rest, or a line feed. -/
theorem cut_last {text : Str} {ls : List Str} {r : Str} (h : Cut text ls r) (hr : r ≠ []) : text.getLast? = r.getLast? := by
  induction h with
  | rest r h => rfl
  | line l t ls r hl hs ih =>
    have ht : t ≠ [] := by
      intro ht
      generalize t = t' at hs ht
      cases hs with
      | rest _ h => exact hr ht
      | line l' t' _ _ _ _ => simp at ht
    rw [← ih hr, List.getLast?_append, List.getLast?_cons]
    cases hg : t.getLast? with
    | none => simp at hg; exact absurd hg ht
    | some x => rfl

theorem cut_last_nl {text : Str} {ls : List Str} (h : Cut text ls []) (ht : text ≠ []) : text.getLast? = some '\n' := by
  generalize hr : ([] : Str) = r at h
  induction h with
  | rest r h => exact absurd hr.symm ht
  | line l t ls r hl hs ih =>
    rw [List.getLast?_append, List.getLast?_cons]
    by_cases h0 : t = []
    · subst h0; rfl
    · rw [ih h0 hr]; rfl

/-- Cutting on where the first cut ended. -/
theorem cut_append {a : Str} {ls : List Str} {r : Str} (h : Cut a ls r) {b : Str} {ms : List Str} {r' : Str} (h' : Cut (r ++ b) ms r') :
    Cut (a ++ b) (ls ++ ms) r' := by
  induction h with
  | rest r _ => exact h'
  | line l t ls r hl _ ih =>
    rw [List.append_assoc, List.cons_append, List.cons_append]
    exact .line l _ _ _ hl (ih h')

theorem cut_unique {text : Str} {ls ms : List Str} {r s : Str} (h : Cut text ls r) (h' : Cut text ms s) : ls = ms ∧ r = s := by
  induction h generalizing ms s with
  | rest r h =>
    cases h' with
    | rest _ _ => exact ⟨rfl, rfl⟩
    | line l t _ _ _ _ => exact absurd (by simp) h
  | line l t ls r hl _ ih =>
    generalize ht : l ++ '\n' :: t = T at h'
    cases h' with
    | rest _ h => exact absurd (by rw [← ht]; simp) h
    | line l' t' ms' s' hl' hs' =>
      have e : l = l' ∧ t = t' := by
        clear ih hs'
        induction l generalizing l' with
        | nil =>
          cases l' with
          | nil => simpa using ht
          | cons c l' =>
            injection ht with h1 _
            exact absurd (h1 ▸ List.mem_cons_self ..) hl'
        | cons c l ihl =>
          cases l' with
          | nil =>
            injection ht with h1 _
            exact absurd (by simp [h1]) hl
          | cons c' l' =>
            injection ht with h1 h2
            have := ihl (fun h => hl (List.mem_cons_of_mem _ h)) l' (fun h => hl' (List.mem_cons_of_mem _ h)) h2
            exact ⟨by rw [h1, this.1], this.2⟩
      obtain ⟨rfl, rfl⟩ := e
      obtain ⟨rfl, rfl⟩ := ih hs'
      exact ⟨rfl, rfl⟩

theorem run_append (p : Proc) (a b : List Str) : p.run (a ++ b) = (p.run a).run b := List.foldl_append ..

/-- What a chunk does. -/
theorem text_spec (p : Parser) (c : Str) (hc : c ≠ []) {ls : List Str} {r : Str} (h : Cut (p.buffer ++ c) ls r) :
    p.text c = if r.getLast? = some '\r' then ⟨p.proc.run (ls ++ [r]), [], p.sections⟩ else ⟨p.proc.run ls, r, p.sections⟩ := by
  unfold Parser.text
  simp only
  rw [cut_lines h]
  by_cases hr : r = []
  · subst hr
    have := cut_last_nl h (by simp [hc])
    rw [this]
    simp
  · rw [if_neg hr, cut_last h hr]
    have hn : r.getLast? ≠ some '\n' := fun hx => cut_rest h (List.mem_of_getLast? hx)
    by_cases hcr : r.getLast? = some '\r'
    · rw [if_pos hcr, if_pos (.inr hcr), List.take_length, if_neg (by omega)]
    · rw [if_neg hcr]
      simp [hcr, hn]

/-- Two chunks at once. -/
theorem text_text (p : Parser) (c d : Str) (hc : c ≠ []) (hd : d ≠ []) (hcr : c.getLast? ≠ some '\r') :
    (p.text c).text d = p.text (c ++ d) := by
  obtain ⟨ls, r, h⟩ := cut_exists (p.buffer ++ c)
  have hr : r.getLast? ≠ some '\r' := by
    by_cases h0 : r = []
    · subst h0; simp
    · rw [← cut_last h h0, List.getLast?_append]
      cases hg : c.getLast? with
      | none => simp at hg; exact absurd hg hc
      | some x => rw [hg] at hcr; simpa using hcr
  have e := text_spec p c hc h
  rw [if_neg hr] at e
  obtain ⟨ms, s, h'⟩ := cut_exists (r ++ d)
  have h2 := cut_append h h'
  rw [List.append_assoc] at h2
  rw [e, text_spec _ d hd h', text_spec p (c ++ d) (by simp [hc]) h2]
  simp only [run_append, List.append_assoc]

theorem text_buffer (p : Parser) (c : Str) (hc : c ≠ []) : '\n' ∉ (p.text c).buffer := by
  obtain ⟨ls, r, h⟩ := cut_exists (p.buffer ++ c)
  rw [text_spec p c hc h]
  by_cases hr : r.getLast? = some '\r'
  · rw [if_pos hr]; simp
  · rw [if_neg hr]; exact cut_rest h

theorem utf8_nil_iff (s : Str) : utf8 s = [] ↔ s = [] := by
  cases s with
  | nil => simp [utf8]
  | cons c s => simp [utf8, List.flatMap_cons, enc_ne c]

theorem feed_utf8 (p : Parser) (s : Str) : p.feed (utf8 s) = .ok (if s = [] then p else p.text s) := by
  unfold Parser.feed
  by_cases hs : s = []
  · rw [if_pos ((utf8_nil_iff s).2 hs), if_pos hs]
  · rw [if_neg (fun h => hs ((utf8_nil_iff s).1 h)), decode_utf8, if_neg hs]

/-- All chunks at once. -/
theorem feedAll_flatten (cs : List Str) : ∀ (p : Parser) (last : Str), (∀ c ∈ cs, c.getLast? ≠ some '\r') →
    p.feedAll ((cs ++ [last]).map utf8) = p.feed (utf8 (cs.flatten ++ last)) := by
  induction cs with
  | nil =>
    intro p last _
    simp only [List.nil_append, List.map_cons, List.map_nil, Parser.feedAll, List.flatten_nil]
    rw [feed_utf8]
  | cons c cs ih =>
    intro p last h
    rw [List.cons_append, List.map_cons, Parser.feedAll, feed_utf8]
    simp only
    have hcs := fun d hd => h d (List.mem_cons_of_mem _ hd)
    by_cases hc : c = []
    · rw [if_pos hc, ih p last hcs, hc]; rfl
    · rw [if_neg hc, ih _ last hcs, feed_utf8, feed_utf8, List.flatten_cons, List.append_assoc]
      rw [if_neg (by simp [hc] : ¬ c ++ (cs.flatten ++ last) = [])]
      by_cases hl : cs.flatten ++ last = []
      · rw [if_pos hl, hl, List.append_nil]
      · rw [if_neg hl, text_text p c _ hc hl (h c (by simp))]

/-! ## Sections -/

theorem endsWith_one {c : Char} {s : Str} : endsWith [c] s = true ↔ s.getLast? = some c := by
  unfold endsWith
  rw [Handlers.startsWith_iff']
  simp only [List.reverse_cons, List.reverse_nil, List.nil_append, List.cons_append]
  constructor
  · rintro ⟨t, ht⟩
    have := congrArg List.reverse ht
    rw [List.reverse_reverse] at this
    rw [this]
    simp
  · intro h
    obtain ⟨t, ht⟩ := List.getLast?_eq_some_iff.1 h
    exact ⟨t.reverse, by rw [ht]; simp⟩

theorem kind_spec (name n : Str) (h : Spec.InfoCmd.Stripped name n) (k : Kind) : KindOf n k ↔ Kind.ofHeader name = k := by
  unfold Kind.ofHeader
  simp only
  rw [Handlers.stripped_eq h]
  unfold KindOf names
  by_cases h1 : n = "Script Info".toList
  · subst h1; rw [if_pos rfl]; cases k <;> decide
  rw [if_neg h1]
  by_cases h2 : n = "V4+ Styles".toList
  · subst h2; rw [if_pos (.inl rfl)]; cases k <;> decide
  by_cases h3 : n = "V4 Styles".toList
  · subst h3; rw [if_pos (.inr rfl)]; cases k <;> decide
  rw [if_neg (not_or.2 ⟨h2, h3⟩)]
  by_cases h4 : n = "Events".toList
  · subst h4; rw [if_pos rfl]; cases k <;> decide
  rw [if_neg h4]
  by_cases h5 : n = "Fonts".toList
  · subst h5; rw [if_pos rfl]; cases k <;> decide
  rw [if_neg h5]
  by_cases h6 : n = "Graphics".toList
  · subst h6; rw [if_pos rfl]; cases k <;> decide
  rw [if_neg h6]
  simp only [List.mem_cons, Prod.mk.injEq, List.not_mem_nil, or_false, List.map_cons, List.map_nil, h1, h2, h3, h4, h5, h6, false_and,
    false_or, not_false_eq_true, and_true, or_self]
  exact eq_comm

/-- What a line does to the section. -/
theorem line_spec (p : Proc) (l : Str) (hp : p.ctx.current = p.state.current) :
    (p.line l).ctx.line = p.ctx.line + 1 ∧ (p.line l).ctx.current = (p.line l).state.current ∧
    (∀ k, Header l k → (p.line l).state.current = some k) ∧ ((¬ ∃ k, Header l k) → (p.line l).state.current = p.state.current) := by
  have hstr := InfoCmd.stripped_trim l
  have hh : ∀ k, Header l k → ∃ name, trim l = '[' :: (name ++ [']']) ∧ Kind.ofHeader name = k := by
    rintro k ⟨t, name, n, h1, h2, h3, h4⟩
    rw [Handlers.stripped_eq h1]
    exact ⟨name, h2, (kind_spec name n h3 k).1 h4⟩
  unfold Proc.line
  simp only
  by_cases hb : trim l = [] ∨ startsWith [';'] (trim l) = true ∨ startsWith ['!', ':'] (trim l) = true
  · rw [if_pos hb]
    refine ⟨rfl, hp, fun k hk => ?_, fun _ => rfl⟩
    obtain ⟨name, h1, _⟩ := hh k hk
    rw [h1] at hb
    rcases hb with hb | hb | hb
    · cases hb
    · obtain ⟨t, ht⟩ := Handlers.startsWith_iff'.1 hb
      simp at ht
    · obtain ⟨t, ht⟩ := Handlers.startsWith_iff'.1 hb
      simp at ht
  · rw [if_neg hb]
    by_cases hx : startsWith ['['] (trim l) = true ∧ endsWith [']'] (trim l) = true
    · rw [if_pos hx]
      obtain ⟨t, ht⟩ := Handlers.startsWith_iff'.1 hx.1
      have hl := endsWith_one.1 hx.2
      obtain ⟨u, hu⟩ := List.getLast?_eq_some_iff.1 hl
      obtain ⟨name, hn⟩ : ∃ name, trim l = '[' :: (name ++ [']']) := by
        cases u with
        | nil => rw [ht] at hu; simp at hu
        | cons c u =>
          rw [ht] at hu
          injection hu with h1 h2
          exact ⟨u, by rw [ht]; exact congrArg ('[' :: ·) h2⟩
      have hc : ((trim l).drop 1).dropLast = name := by rw [hn]; simp
      unfold Proc.header
      simp only
      rw [hc]
      refine ⟨?_, ?_, ?_, ?_⟩
      · cases Kind.ofHeader name <;> rfl
      · cases Kind.ofHeader name <;> rfl
      · intro k hk
        obtain ⟨name', h1, h2⟩ := hh k hk
        rw [hn] at h1
        injection h1 with _ h1
        have : name = name' := List.append_cancel_right h1
        rw [← h2, ← this]; rfl
      · intro hno
        exact absurd ⟨_, trim l, name, trim name, hstr, hn, InfoCmd.stripped_trim name, (kind_spec _ _ (InfoCmd.stripped_trim name) _).2 rfl⟩ hno
    · rw [if_neg hx]
      have hno : ∀ k, ¬ Header l k := by
        intro k hk
        obtain ⟨name, h1, _⟩ := hh k hk
        apply hx
        rw [h1]
        refine ⟨Handlers.startsWith_iff'.2 ⟨_, rfl⟩, endsWith_one.2 ?_⟩
        rw [List.getLast?_cons, List.getLast?_append]
        rfl
      have rest : ∀ q : Proc, q.ctx.line = p.ctx.line + 1 → q.ctx.current = q.state.current → q.state.current = p.state.current →
          q.ctx.line = p.ctx.line + 1 ∧ q.ctx.current = q.state.current ∧ (∀ k, Header l k → q.state.current = some k) ∧
            ((¬ ∃ k, Header l k) → q.state.current = p.state.current) :=
        fun q h1 h2 h3 => ⟨h1, h2, fun k hk => absurd hk (hno k), fun _ => h3⟩
      cases hs : p.state with
      | expecting =>
        simp only
        rw [hs] at rest hp
        exact ⟨trivial, hp, fun k hk => absurd hk (hno k), fun _ => trivial⟩
      | event k =>
        simp only
        rw [hs] at rest hp
        exact ⟨trivial, hp, fun k' hk => absurd hk (hno k'), fun _ => rfl⟩
      | «section» k =>
        simp only
        rw [hs] at rest hp
        apply rest
        · cases k <;> simp only [Proc.content, Proc.stylesLine, Proc.eventsLine] <;> (try split) <;> (try split) <;> rfl
        · cases k <;> simp only [Proc.content, Proc.stylesLine, Proc.eventsLine] <;> (try split) <;> (try split) <;> simp [hs, hp, State.current]
        · cases k <;> simp only [Proc.content, Proc.stylesLine, Proc.eventsLine] <;> (try split) <;> (try split) <;> simp [hs, State.current]

theorem run_spec (ls : List Str) : ∀ (p : Proc), p.ctx.current = p.state.current →
    (p.run ls).ctx.line = p.ctx.line + ls.length ∧ (p.run ls).ctx.current = (p.run ls).state.current ∧
      After p.state.current ls (p.run ls).state.current := by
  induction ls with
  | nil => intro p hp; exact ⟨rfl, hp, .done _⟩
  | cons l ls ih =>
    intro p hp
    obtain ⟨h1, h2, h3, h4⟩ := line_spec p l hp
    obtain ⟨i1, i2, i3⟩ := ih (p.line l) h2
    have e : p.run (l :: ls) = (p.line l).run ls := rfl
    rw [e]
    refine ⟨by rw [i1, h1, List.length_cons]; omega, i2, ?_⟩
    by_cases hk : ∃ k, Header l k
    · obtain ⟨k, hk⟩ := hk
      rw [h3 k hk] at i3
      exact .header _ _ _ k _ hk i3
    · rw [h4 hk] at i3
      exact .other _ _ _ _ hk i3

end Verif.Stream
