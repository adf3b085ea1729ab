import Verif.Lemmas.Places
import Verif.Lemmas.Script
/-!
# Places in any source

The position of the parser is always a place in the source, and within a section the start of a line but for blanks.
-/
namespace Verif.Parser
open Verif Verif.Ast
open Verif.Spec.Script (Space LineAt size)
open Verif.Spec.InfoCmd (Stripped)

/-- `rest` is what remains of the source at byte `off`. -/
def Here (src rest : Str) (off : Nat) : Prop := ∃ pre, src = pre ++ rest ∧ off = byteLen pre

/-- The end of the source, or a line of it but for blanks before. -/
def Begins (src rest : Str) (off : Nat) : Prop :=
  rest = [] ∨ ∃ a w, src = a ++ w ++ rest ∧ off = byteLen (a ++ w) ∧ a.getLast? = some '\n' ∧ ∀ c ∈ w, Space c

theorem here_drop {src a r : Str} {off : Nat} (h : Here src (a ++ r) off) : Here src r (off + byteLen a) := by
  obtain ⟨pre, e, ho⟩ := h
  exact ⟨pre ++ a, by rw [e]; simp, by rw [byteLen_append, ho]⟩

theorem here_line {src l r : Str} {off : Nat} (h : Here src (l ++ '\n' :: r) off) : Here src r (off + byteLen l + 1) ∧ Begins src r (off + byteLen l + 1) := by
  have h' : Here src ((l ++ ['\n']) ++ r) off := by simpa using h
  have hb : byteLen (l ++ ['\n']) = byteLen l + 1 := by rw [byteLen_append]; rfl
  have := here_drop h'
  rw [hb, ← Nat.add_assoc] at this
  refine ⟨this, .inr ?_⟩
  obtain ⟨pre, e, ho⟩ := h'
  exact ⟨pre ++ (l ++ ['\n']), [], by rw [e]; simp, by rw [List.append_nil, byteLen_append, hb, ho]; omega, by rw [← List.append_assoc, List.getLast?_concat], by simp⟩

theorem blank_space {c : Char} (h : isBlank c = true) : Space c ∧ c.utf8Size = 1 := by
  unfold isBlank at h
  simp only [Bool.or_eq_true, decide_eq_true_eq] at h
  rcases h with (h | h) | h <;> subst h
  · exact ⟨.inl rfl, by decide⟩
  · exact ⟨.inr (.inl rfl), by decide⟩
  · exact ⟨.inr (.inr rfl), by decide⟩

theorem ws_all (t : Tr) : ∀ c ∈ t.rest.takeWhile isBlank, isBlank c = true := fun c hc => takeWhile_all _ c hc

theorem Tr.skipWs_here {src : Str} {t : Tr} (h : Here src t.rest t.off) : Here src t.skipWs.rest t.skipWs.off := by
  have e : t.rest = t.rest.takeWhile isBlank ++ t.rest.dropWhile isBlank := (List.takeWhile_append_dropWhile ..).symm
  rw [e] at h
  have := here_drop h
  rw [blanks_len] at this
  exact this

theorem Tr.skipWs_begins {src : Str} {t : Tr} (h : Begins src t.rest t.off) : Begins src t.skipWs.rest t.skipWs.off := by
  rcases h with h | ⟨a, w, e, ho, ha, hw⟩
  · left; show t.rest.dropWhile isBlank = []; rw [h]; rfl
  · right
    refine ⟨a, w ++ t.rest.takeWhile isBlank, ?_, ?_, ha, ?_⟩
    · rw [e]
      show _ = a ++ (w ++ t.rest.takeWhile isBlank) ++ t.rest.dropWhile isBlank
      have := (List.takeWhile_append_dropWhile (p := isBlank) (l := t.rest))
      rw [← this]
      simp only [List.append_assoc, this]
    · show t.off + _ = _
      rw [← List.append_assoc, byteLen_append, blanks_len, ho]
    · intro c hc
      rcases List.mem_append.1 hc with hc | hc
      · exact hw c hc
      · exact (blank_space (ws_all t c hc)).1

theorem Tr.skipLine_both {src : Str} {t : Tr} (h : Here src t.rest t.off) :
    Here src t.skipLine.rest t.skipLine.off ∧ Begins src t.skipLine.rest t.skipLine.off := by
  unfold Tr.skipLine
  cases hs : splitOnce '\n' t.rest with
  | none =>
    refine ⟨?_, .inl rfl⟩
    have h' : Here src (t.rest ++ []) t.off := by rw [List.append_nil]; exact h
    exact here_drop h'
  | some q =>
    have e := (splitOnce_some hs).1
    rw [e] at h
    exact here_line h

theorem Tr.newline_both {src : Str} {t : Tr} (h : Here src t.rest t.off) (hn : startsWith ['\n'] t.rest = true) :
    Here src t.newline.rest t.newline.off ∧ Begins src t.newline.rest t.newline.off := by
  obtain ⟨r, hr⟩ := startsWith_iff.1 hn
  rw [hr] at h
  have := here_line (l := []) h
  unfold Tr.newline
  rw [hr]
  exact this

theorem skipBlank_both {src : Str} (com : Str → Bool) (n : Nat) : ∀ t t', Here src t.rest t.off → Begins src t.rest t.off → skipBlank com n t = some t' →
    Here src t'.rest t'.off ∧ Begins src t'.rest t'.off ∧ (t'.rest = [] ∨ ∀ c, t'.rest.head? = some c → ¬ Space c) := by
  induction n with
  | zero => intro t t' _ _ h; cases h
  | succ n ih =>
    intro t t' h1 h2 h
    have w1 := Tr.skipWs_here h1
    have w2 := Tr.skipWs_begins h2
    rw [skipBlank] at h
    split at h
    · injection h with h; subst h
      exact ⟨w1, w2, .inl ‹_›⟩
    · split at h
      · exact ih _ _ (Tr.skipLine_both w1).1 (Tr.skipLine_both w1).2 h
      · split at h
        · rename_i hn
          exact ih _ _ (Tr.newline_both w1 hn).1 (Tr.newline_both w1 hn).2 h
        · injection h with h; subst h
          refine ⟨w1, w2, .inr fun c hc hsp => ?_⟩
          have hd : (t.rest.dropWhile isBlank).head? = some c := hc
          have := List.head?_dropWhile_not isBlank t.rest
          rw [hd] at this
          simp only at this
          have hb : isBlank c = true := by
            unfold isBlank
            rcases hsp with rfl | rfl | rfl <;> decide
          rw [hb] at this
          cases this

theorem line_at {src : Str} {t : Tr} (h : Begins src t.rest t.off) (hne : t.rest ≠ []) (hh : ∀ c, t.rest.head? = some c → ¬ Space c) :
    LineAt src t.off (t.off + byteLen t.current) t.current := by
  rcases h with h | ⟨a, w, e, ho, ha, hw⟩
  · exact absurd h hne
  · have ec : t.rest = t.current ++ t.rest.dropWhile (· ≠ '\n') := (List.takeWhile_append_dropWhile ..).symm
    refine ⟨a, w, t.rest.dropWhile (· ≠ '\n'), ?_, ho, ?_, ha, hw, ?_, ?_, ?_⟩
    · rw [e, List.append_assoc _ t.current, ← ec]
    · rw [ho]; show _ = byteLen _; rw [byteLen_append (a ++ w)]
    · intro c hc
      apply hh c
      rw [ec]
      unfold Tr.current at hc ⊢
      cases hr : t.rest.takeWhile (· ≠ '\n') with
      | nil => rw [hr] at hc; cases hc
      | cons x l => rw [hr] at hc; simpa using hc
    · intro hm
      have := takeWhile_all _ _ hm
      simp at this
    · cases hr : t.rest.dropWhile (· ≠ '\n') with
      | nil => exact .inl rfl
      | cons c l =>
        have := List.head?_dropWhile_not (· ≠ '\n') t.rest
        rw [hr] at this
        simp at this
        exact .inr (by simp [this])

theorem sectionLoop_places {σ : Type} {src : Str} (step : σ → Tr → Str → σ) (P : σ → Prop)
    (hs : ∀ s t, P s → LineAt src t.off (t.off + byteLen t.current) t.current → P (step s t (trim t.current))) (n : Nat) :
    ∀ s t s' t', P s → Here src t.rest t.off → Begins src t.rest t.off → sectionLoop step n s t = some (s', t') → P s' ∧ Here src t'.rest t'.off := by
  induction n with
  | zero => intro s t s' t' _ _ _ h; cases h
  | succ n ih =>
    intro s t s' t' hp k1 k2 h
    rw [sectionLoop] at h
    by_cases h1 : t.rest = [] ∨ t.atSection = true
    · rw [if_pos h1] at h
      simp only [Option.some.injEq, Prod.mk.injEq] at h
      obtain ⟨rfl, rfl⟩ := h
      exact ⟨hp, k1⟩
    · rw [if_neg h1] at h
      cases hb : skipBlank isComment (t.rest.length + 1) t with
      | none => rw [hb] at h; cases h
      | some u =>
        rw [hb] at h
        simp only at h
        obtain ⟨u1, u2, u3⟩ := skipBlank_both _ _ _ _ k1 k2 hb
        by_cases h2 : u.rest = [] ∨ u.atSection = true
        · rw [if_pos h2] at h
          simp only [Option.some.injEq, Prod.mk.injEq] at h
          obtain ⟨rfl, rfl⟩ := h
          exact ⟨hp, u1⟩
        · rw [if_neg h2] at h
          have hne : u.rest ≠ [] := fun e => h2 (.inl e)
          by_cases h3 : trim u.current = []
          · rw [if_pos h3] at h
            exact ih _ _ _ _ hp (Tr.skipLine_both u1).1 (Tr.skipLine_both u1).2 h
          · rw [if_neg h3] at h
            exact ih _ _ _ _ (hs _ _ hp (line_at u2 hne (u3.resolve_left hne))) (Tr.skipLine_both u1).1 (Tr.skipLine_both u1).2 h

/-- The place is a line that reads as the event. -/
def EventAt (src : Str) (x : Event × Span) : Prop := ∃ l y fmt, LineAt src x.2.start x.2.stop l ∧ Stripped l y ∧ parseEvent y fmt = some x.1

/-- The place is a line that reads as the style. -/
def StyleAt (src : Str) (x : Style × Span) : Prop := ∃ l d y fmt, LineAt src x.2.start x.2.stop l ∧ Stripped l ("Style:".toList ++ d) ∧
  Stripped d y ∧ parseStyle y fmt = some x.1

theorem eventStep_places {src : Str} (s : EventsSt) (t : Tr) (h : ∀ x ∈ s.events, EventAt src x)
    (hl : LineAt src t.off (t.off + byteLen t.current) t.current) : ∀ x ∈ (eventStep s t (trim t.current)).events, EventAt src x := by
  unfold eventStep
  cases stripPrefix "Format:".toList (trim t.current) with
  | some d => exact h
  | none =>
    simp only
    cases ek : eventKind (trim t.current) with
    | none => exact h
    | some q =>
      obtain ⟨k, d⟩ := q
      simp only
      cases ed : eventData k (trim d) (s.fmt.getD eventFormat) with
      | error _ => exact h
      | ok e =>
        intro x hx
        rcases List.mem_append.1 hx with hx | hx
        · exact h x hx
        · rw [List.mem_singleton.1 hx]
          exact ⟨t.current, trim t.current, _, hl, InfoCmd.stripped_trim _, by unfold parseEvent; rw [ek]; simp only; rw [ed]⟩

theorem styleStep_places {src : Str} (s : StylesSt) (t : Tr) (hf : s.fmt ≠ some []) (h : ∀ x ∈ s.styles, StyleAt src x)
    (hl : LineAt src t.off (t.off + byteLen t.current) t.current) : ∀ x ∈ (styleStep s t (trim t.current)).styles, StyleAt src x := by
  unfold styleStep
  cases stripPrefix "Format:".toList (trim t.current) with
  | some d => exact h
  | none =>
    simp only
    cases es : stripPrefix "Style:".toList (trim t.current) with
    | none => exact h
    | some d =>
      simp only
      unfold styleInternal
      simp only
      split
      · exact h
      · rename_i hlen
        intro x hx
        rcases List.mem_append.1 hx with hx | hx
        · exact h x hx
        · rw [List.mem_singleton.1 hx]
          refine ⟨t.current, d, trim d, s.fmt.getD [], hl, ?_, InfoCmd.stripped_trim _, ?_⟩
          · rw [← stripPrefix_iff.1 es]; exact InfoCmd.stripped_trim _
          · have hfm := getD_fmt hf styleFormat
            unfold parseStyle
            simp only [hfm, if_neg hlen]

theorem styleStep_fmt (s : StylesSt) (t : Tr) (line : Str) (hf : s.fmt ≠ some []) : (styleStep s t line).fmt ≠ some [] := by
  unfold styleStep
  cases stripPrefix "Format:".toList line with
  | some d =>
    simp only [ne_eq, Option.some.injEq]
    unfold formatFields
    rw [List.map_eq_nil_iff]
    exact splitOn_ne_nil _ _
  | none =>
    simp only
    cases stripPrefix "Style:".toList line with
    | none => exact hf
    | some d =>
      simp only
      unfold styleInternal
      simp only
      split <;> exact hf

/-! ## Embedded files and the other parts -/

theorem collectData_here {src : Str} (n : Nat) : ∀ acc t d t', Here src t.rest t.off → collectData n acc t = some (d, t') → Here src t'.rest t'.off := by
  induction n with
  | zero => intro acc t d t' _ h; cases h
  | succ n ih =>
    intro acc t d t' h1 h
    rw [collectData] at h
    have done : ∀ {x : List Str}, some (x, t) = some (d, t') → Here src t'.rest t'.off := by
      intro x h
      simp only [Option.some.injEq, Prod.mk.injEq] at h
      rw [← h.2]; exact h1
    split at h
    · exact done h
    · split at h
      · exact done h
      · split at h
        · exact ih _ _ _ _ (Tr.skipLine_both h1).1 h
        · split at h
          · exact done h
          · exact ih _ _ _ _ (Tr.skipLine_both h1).1 h

theorem parseEntry_here {src key : Str} {t t' : Tr} {e : Option Media} (h1 : Here src t.rest t.off) (h : parseEntry key t = some (e, t')) :
    Here src t'.rest t'.off := by
  unfold parseEntry at h
  have hs : some (none, t.skipLine) = some (e, t') → Here src t'.rest t'.off := by
    intro h
    simp only [Option.some.injEq, Prod.mk.injEq] at h
    rw [← h.2]
    exact (Tr.skipLine_both h1).1
  cases hsp : splitOnce ':' t.current with
  | none => rw [hsp] at h; exact hs h
  | some q =>
    rw [hsp] at h
    simp only at h
    split at h
    · cases hc : collectData (t.rest.length + 1) [] t.skipLine with
      | none => rw [hc] at h; cases h
      | some r =>
        rw [hc] at h
        simp only [Option.some.injEq, Prod.mk.injEq] at h
        rw [← h.2]
        exact collectData_here _ _ _ _ _ (Tr.skipLine_both h1).1 hc
    · exact hs h

theorem skipBlank_here {src : Str} (com : Str → Bool) (n : Nat) : ∀ t t', Here src t.rest t.off → skipBlank com n t = some t' → Here src t'.rest t'.off := by
  induction n with
  | zero => intro t t' _ h; cases h
  | succ n ih =>
    intro t t' h1 h
    have w1 := Tr.skipWs_here h1
    rw [skipBlank] at h
    split at h
    · injection h with h; subst h; exact w1
    · split at h
      · exact ih _ _ (Tr.skipLine_both w1).1 h
      · split at h
        · rename_i hn
          exact ih _ _ (Tr.newline_both w1 hn).1 h
        · injection h with h; subst h; exact w1

theorem binaryLoop_here {src : Str} (key : Str) (n : Nat) : ∀ acc t l t', Here src t.rest t.off → binaryLoop key n acc t = some (l, t') → Here src t'.rest t'.off := by
  induction n with
  | zero => intro acc t l t' _ h; cases h
  | succ n ih =>
    intro acc t l t' h1 h
    rw [binaryLoop] at h
    have done : ∀ {x : List Media} {u : Tr}, Here src u.rest u.off → some (x, u) = some (l, t') → Here src t'.rest t'.off := by
      intro x u hu h
      simp only [Option.some.injEq, Prod.mk.injEq] at h
      rw [← h.2]; exact hu
    split at h
    · exact done h1 h
    · cases hb : skipBlank isBinComment (t.rest.length + 1) t with
      | none => rw [hb] at h; cases h
      | some u =>
        rw [hb] at h
        simp only at h
        have hu := skipBlank_here _ _ _ _ h1 hb
        split at h
        · exact done hu h
        · cases he : parseEntry key u with
          | none => rw [he] at h; cases h
          | some q =>
            obtain ⟨e, v⟩ := q
            rw [he] at h
            exact ih _ _ _ _ (parseEntry_here hu he) h

/-! ## The parser -/

/-- Every place given so far is a line that reads as the entry. -/
def Placed (src : Str) : Section → Prop
  | .events l => ∀ x ∈ l, EventAt src x
  | .styles l => ∀ x ∈ l, StyleAt src x
  | _ => True

def Ok (src : Str) (p : St) : Prop := Here src p.rest p.off ∧ ∀ x ∈ p.sections, Placed src x

theorem St.skipLine_ok {src : Str} {p : St} (h : Ok src p) : Ok src p.skipLine ∧ Begins src p.skipLine.rest p.skipLine.off := by
  have := Tr.skipLine_both (t := p.tracker) h.1
  unfold Tr.skipLine at this
  unfold St.skipLine
  have e : p.tracker.rest = p.rest := rfl
  rw [e] at this
  cases hs : splitOnce '\n' p.rest with
  | none => rw [hs] at this; exact ⟨⟨this.1, h.2⟩, this.2⟩
  | some q => rw [hs] at this; exact ⟨⟨this.1, h.2⟩, this.2⟩

theorem skipTop_ok {src : Str} (n : Nat) : ∀ p q, Ok src p → skipTop n p = some q → Ok src q := by
  induction n with
  | zero => intro p q _ h; cases h
  | succ n ih =>
    intro p q hp h
    rw [skipTop] at h
    split at h
    · injection h with h; exact h ▸ hp
    · split at h
      · exact ih _ _ (St.skipLine_ok hp).1 h
      · split at h
        · refine ih _ _ ?_ h
          refine ⟨?_, hp.2⟩
          obtain ⟨w, e⟩ : ∃ w, p.rest = w ++ trimStart p.rest := ⟨_, (List.takeWhile_append_dropWhile (p := isWs) (l := p.rest)).symm⟩
          have hh := hp.1
          rw [e] at hh
          have := here_drop hh
          have hb : byteLen p.rest - byteLen (trimStart p.rest) = byteLen w := by
            have := congrArg byteLen e
            rw [byteLen_append] at this
            omega
          show Here src (trimStart p.rest) (p.off + (byteLen p.rest - byteLen (trimStart p.rest)))
          rw [hb]
          exact this
        · injection h with h; exact h ▸ hp

theorem skipToNext_ok {src : Str} (n : Nat) : ∀ p q, Ok src p → skipToNext n p = some q → Ok src q := by
  induction n with
  | zero => intro p q _ h; cases h
  | succ n ih =>
    intro p q hp h
    rw [skipToNext] at h
    split at h
    · injection h with h; exact h ▸ hp
    · split at h
      · injection h with h; exact h ▸ hp
      · exact ih _ _ (St.skipLine_ok hp).1 h

theorem ok_section {src : Str} {p q : St} {sec : Section} (hp : Ok src p) (hh : Here src q.rest q.off) (hs : q.sections = p.sections ++ [sec]) (hb : Placed src sec) : Ok src q := by
  refine ⟨hh, ?_⟩
  rw [hs]
  intro x hx
  rcases List.mem_append.1 hx with hx | hx
  · exact hp.2 x hx
  · rw [List.mem_singleton.1 hx]; exact hb

theorem parseBody_ok {src : Str} (name : Str) {p q : St} (hp : Ok src p) (hb : Begins src p.rest p.off) (h : parseBody name p = some q) : Ok src q := by
  unfold parseBody at h
  simp only at h
  split at h
  · cases hl : sectionLoop infoStep (p.rest.length + 1) ⟨[], none, []⟩ p.tracker with
    | none => rw [hl] at h; cases h
    | some r =>
      obtain ⟨s, t⟩ := r
      rw [hl] at h
      injection h with h
      subst h
      have := sectionLoop_places infoStep (fun _ => True) (fun _ _ _ _ => trivial) _ _ _ _ _ trivial hp.1 hb hl
      exact ok_section hp this.2 rfl trivial
  · split at h
    · cases hl : sectionLoop styleStep (p.rest.length + 1) ⟨none, [], []⟩ p.tracker with
      | none => rw [hl] at h; cases h
      | some r =>
        obtain ⟨s, t⟩ := r
        rw [hl] at h
        injection h with h
        subst h
        have := sectionLoop_places styleStep (fun s => s.fmt ≠ some [] ∧ ∀ x ∈ s.styles, StyleAt src x)
          (fun s t hs hl => ⟨styleStep_fmt s t _ hs.1, styleStep_places s t hs.1 hs.2 hl⟩) _ _ _ _ _ ⟨by simp, by simp⟩ hp.1 hb hl
        exact ok_section hp this.2 rfl this.1.2
    · split at h
      · cases hl : sectionLoop eventStep (p.rest.length + 1) ⟨none, [], []⟩ p.tracker with
        | none => rw [hl] at h; cases h
        | some r =>
          obtain ⟨s, t⟩ := r
          rw [hl] at h
          injection h with h
          subst h
          have := sectionLoop_places eventStep (fun s => ∀ x ∈ s.events, EventAt src x)
            (fun s t hs hl => eventStep_places s t hs hl) _ _ _ _ _ (by simp) hp.1 hb hl
          exact ok_section hp this.2 rfl this.1
      · split at h
        · cases hl : binaryLoop "fontname".toList (p.rest.length + 1) [] p.tracker with
          | none => rw [hl] at h; cases h
          | some r =>
            obtain ⟨l, t⟩ := r
            rw [hl] at h
            injection h with h
            subst h
            exact ok_section hp (binaryLoop_here _ _ _ _ _ _ hp.1 hl) rfl trivial
        · split at h
          · cases hl : binaryLoop "filename".toList (p.rest.length + 1) [] p.tracker with
            | none => rw [hl] at h; cases h
            | some r =>
              obtain ⟨l, t⟩ := r
              rw [hl] at h
              injection h with h
              subst h
              exact ok_section hp (binaryLoop_here _ _ _ _ _ _ hp.1 hl) rfl trivial
          · cases h1 : skipToNext (p.rest.length + 1) p with
            | none => rw [h1] at h; cases h
            | some u =>
              rw [h1] at h
              simp only at h
              cases h2 : skipToNext (u.rest.length + 1) u with
              | none => rw [h2] at h; cases h
              | some v =>
                rw [h2] at h
                injection h with h
                subst h
                have := skipToNext_ok _ _ _ (skipToNext_ok _ _ _ hp h1) h2
                exact ⟨this.1, this.2⟩

theorem parseOne_ok {src : Str} {p q : St} (hp : Ok src p) (h : parseOne p = some q) : Ok src q := by
  unfold parseOne at h
  split at h
  · cases hs : splitOnce ']' p.rest with
    | none => rw [hs] at h; exact skipToNext_ok _ _ _ (by exact hp) h
    | some r =>
      obtain ⟨a, r⟩ := r
      rw [hs] at h
      have hp' : Ok src { p with rest := r, off := p.off + byteLen a + 1 } := by
        refine ⟨?_, hp.2⟩
        have e := (splitOnce_some hs).1
        have hh := hp.1
        rw [e, show a ++ ']' :: r = (a ++ [']']) ++ r by simp] at hh
        have := here_drop hh
        rw [byteLen_append, ← Nat.add_assoc] at this
        exact this
      have := St.skipLine_ok hp'
      exact parseBody_ok _ this.1 this.2 h
  · exact skipToNext_ok _ _ _ (by exact hp) h

theorem mainLoop_ok {src : Str} (n : Nat) : ∀ p q, Ok src p → mainLoop n p = some q → Ok src q := by
  induction n with
  | zero => intro p q _ h; cases h
  | succ n ih =>
    intro p q hp h
    rw [mainLoop] at h
    split at h
    · injection h with h; exact h ▸ hp
    · cases hs : skipTop (p.rest.length + 1) p with
      | none => rw [hs] at h; cases h
      | some u =>
        rw [hs] at h
        simp only at h
        have hu := skipTop_ok _ _ _ hp hs
        split at h
        · injection h with h; exact h ▸ hu
        · cases ho : parseOne u with
          | none => rw [ho] at h; cases h
          | some v =>
            rw [ho] at h
            exact ih _ _ (parseOne_ok hu ho) h

theorem parse_placed {src : Str} {s : Script} (h : parse src = some s) : ∀ x ∈ s.sections, Placed src x := by
  unfold parse at h
  split at h
  · injection h with h
    subst h
    simp
  · cases hm : mainLoop (src.length + 1) (initial src) with
    | none => rw [hm] at h; cases h
    | some p =>
      rw [hm] at h
      injection h with h
      subst h
      have bom : 3 = byteLen [Char.ofNat 0xFEFF] := by decide
      have hi : Ok src (initial src) := by
        unfold initial
        cases src with
        | nil => exact ⟨⟨[], rfl, rfl⟩, by simp⟩
        | cons c r =>
          simp only
          split
          · rename_i hc
            subst hc
            exact ⟨⟨[Char.ofNat 0xFEFF], rfl, bom⟩, by simp⟩
          · exact ⟨⟨[], rfl, rfl⟩, by simp⟩
      exact (mainLoop_ok _ _ _ hi hm).2

end Verif.Parser
