import Verif.Spec.Update
import Verif.Lemmas.Bytes
import Verif.Lemmas.Str
/-! Places of what a parsed script holds follow each other, for every source. -/
namespace Verif.Parser
open Verif
open Verif.Ast
open Verif.Spec.Update

/-- Places in order between two offsets. -/
def Bounded (lo hi : Nat) (l : List Span) : Prop := Ordered l ∧ (∀ s ∈ l, lo ≤ s.start ∧ s.stop ≤ hi) ∧ lo ≤ hi

theorem Bounded.mono {lo hi hi' : Nat} {l : List Span} (h : Bounded lo hi l) (hh : hi ≤ hi') : Bounded lo hi' l :=
  ⟨h.1, fun s hs => ⟨(h.2.1 s hs).1, Nat.le_trans (h.2.1 s hs).2 hh⟩, Nat.le_trans h.2.2 hh⟩

theorem Bounded.nil {lo hi : Nat} (h : lo ≤ hi) : Bounded lo hi [] := ⟨⟨by simp, .nil⟩, by simp, h⟩

theorem Bounded.append {lo mid hi : Nat} {a b : List Span} (ha : Bounded lo mid a) (hb : Bounded mid hi b) : Bounded lo hi (a ++ b) := by
  refine ⟨⟨?_, ?_⟩, ?_, Nat.le_trans ha.2.2 hb.2.2⟩
  · intro s hs
    rcases List.mem_append.1 hs with hs | hs
    · exact ha.1.1 s hs
    · exact hb.1.1 s hs
  · rw [List.pairwise_append]
    exact ⟨ha.1.2, hb.1.2, fun x hx y hy => Nat.le_trans (ha.2.1 x hx).2 (hb.2.1 y hy).1⟩
  · intro s hs
    rcases List.mem_append.1 hs with hs | hs
    · exact ⟨(ha.2.1 s hs).1, Nat.le_trans (ha.2.1 s hs).2 hb.2.2⟩
    · exact ⟨Nat.le_trans ha.2.2 (hb.2.1 s hs).1, (hb.2.1 s hs).2⟩

theorem Bounded.single {lo hi : Nat} {s : Span} (h1 : lo ≤ s.start) (h2 : s.start ≤ s.stop) (h3 : s.stop ≤ hi) : Bounded lo hi [s] :=
  ⟨⟨by simpa using h2, by simp⟩, by simpa using ⟨h1, h3⟩, by omega⟩

/-! ## Offsets only grow -/

theorem skipLine_off (t : Tr) : t.off + byteLen t.current ≤ t.skipLine.off := by
  unfold Tr.skipLine Tr.current
  cases h : splitOnce '\n' t.rest with
  | none =>
    have hn := splitOnce_eq_none h
    have : t.rest.takeWhile (· ≠ '\n') = t.rest := by
      have := List.takeWhile_append_of_pos (p := fun c => decide (c ≠ '\n')) (l₁ := t.rest) (l₂ := []) (by
        intro c hc
        simpa using fun h0 : c = '\n' => hn (h0 ▸ hc))
      simpa using this
    rw [this]
    exact Nat.le_refl _
  | some p =>
    obtain ⟨l, r⟩ := p
    obtain ⟨e, hl⟩ := splitOnce_some h
    have : t.rest.takeWhile (· ≠ '\n') = l := by
      rw [e, List.takeWhile_append_of_pos]
      · simp
      · intro c hc
        simpa using fun h0 : c = '\n' => hl (h0 ▸ hc)
    rw [this]
    show t.off + byteLen l ≤ t.off + byteLen l + 1
    omega

theorem skipLine_mono (t : Tr) : t.off ≤ t.skipLine.off := Nat.le_trans (Nat.le_add_right _ _) (skipLine_off t)

theorem skipWs_mono (t : Tr) : t.off ≤ t.skipWs.off := Nat.le_add_right _ _

theorem skipBlank_mono (com : Str → Bool) (n : Nat) : ∀ t t', skipBlank com n t = some t' → t.off ≤ t'.off := by
  induction n with
  | zero => intro t t' h; cases h
  | succ n ih =>
    intro t t' h
    rw [skipBlank] at h
    have h0 := skipWs_mono t
    by_cases h1 : t.skipWs.rest = []
    · rw [if_pos h1] at h; injection h with h; rw [← h]; exact h0
    · rw [if_neg h1] at h
      by_cases h2 : com t.skipWs.rest = true
      · rw [if_pos h2] at h
        exact Nat.le_trans h0 (Nat.le_trans (skipLine_mono _) (ih _ _ h))
      · rw [if_neg h2] at h
        by_cases h3 : startsWith ['\n'] t.skipWs.rest = true
        · rw [if_pos h3] at h
          have h4 : t.skipWs.off ≤ t.skipWs.newline.off := Nat.le_succ _
          exact Nat.le_trans h0 (Nat.le_trans h4 (ih _ _ h))
        · rw [if_neg h3] at h; injection h with h; rw [← h]; exact h0

/-- What holds at each offset holds at the end. -/
theorem sectionLoop_inv {σ : Type} (step : σ → Tr → Str → σ) (P : σ → Nat → Prop) (hm : ∀ s a b, P s a → a ≤ b → P s b)
    (hs : ∀ s t line, P s t.off → P (step s t line) (t.off + byteLen t.current)) (n : Nat) :
    ∀ s t s' t', P s t.off → sectionLoop step n s t = some (s', t') → P s' t'.off ∧ t.off ≤ t'.off := by
  induction n with
  | zero => intro s t s' t' _ h; cases h
  | succ n ih =>
    intro s t s' t' hp h
    rw [sectionLoop] at h
    by_cases h1 : t.rest = [] ∨ t.atSection = true
    · rw [if_pos h1] at h
      simp only [Option.some.injEq, Prod.mk.injEq] at h
      obtain ⟨rfl, rfl⟩ := h
      exact ⟨hp, Nat.le_refl _⟩
    · rw [if_neg h1] at h
      cases hb : skipBlank isComment (t.rest.length + 1) t with
      | none => rw [hb] at h; cases h
      | some u =>
        rw [hb] at h
        simp only at h
        have hu := skipBlank_mono _ _ _ _ hb
        have hp := hm _ _ _ hp hu
        by_cases h2 : u.rest = [] ∨ u.atSection = true
        · rw [if_pos h2] at h
          simp only [Option.some.injEq, Prod.mk.injEq] at h
          obtain ⟨rfl, rfl⟩ := h
          exact ⟨hp, hu⟩
        · rw [if_neg h2] at h
          by_cases h3 : trim u.current = []
          · rw [if_pos h3] at h
            have := ih _ _ _ _ (hm _ _ _ hp (skipLine_mono u)) h
            exact ⟨this.1, Nat.le_trans hu (Nat.le_trans (skipLine_mono u) this.2)⟩
          · rw [if_neg h3] at h
            have := ih _ _ _ _ (hm _ _ _ (hs _ _ _ hp) (skipLine_off u)) h
            exact ⟨this.1, Nat.le_trans hu (Nat.le_trans (skipLine_mono u) this.2)⟩

theorem spanFor_bounded (lo : Nat) (t : Tr) (l : List Span) (h : Bounded lo t.off l) :
    Bounded lo (t.off + byteLen t.current) (l ++ [t.spanFor (byteLen t.current)]) :=
  h.append (Bounded.single (Nat.le_refl _) (Nat.le_add_right _ _) (Nat.le_refl _))

theorem styleStep_inv (lo : Nat) (s : StylesSt) (t : Tr) (line : Str) (h : Bounded lo t.off (s.styles.map (·.2))) :
    Bounded lo (t.off + byteLen t.current) ((styleStep s t line).styles.map (·.2)) := by
  have h' := h.mono (Nat.le_add_right _ (byteLen t.current))
  unfold styleStep
  cases stripPrefix "Format:".toList line with
  | some d => exact h'
  | none =>
    simp only
    cases stripPrefix "Style:".toList line with
    | none => exact h'
    | some d =>
      simp only
      unfold styleInternal
      simp only
      generalize splitOn ',' (styleParent (trim d)).1 = parts
      by_cases hl : parts.length < (s.fmt.getD styleFormat).length
      · rw [if_pos hl]; exact h'
      · rw [if_neg hl]
        simp only [List.map_append, List.map_cons, List.map_nil]
        exact spanFor_bounded lo t _ h

theorem eventStep_inv (lo : Nat) (s : EventsSt) (t : Tr) (line : Str) (h : Bounded lo t.off (s.events.map (·.2))) :
    Bounded lo (t.off + byteLen t.current) ((eventStep s t line).events.map (·.2)) := by
  have h' := h.mono (Nat.le_add_right _ (byteLen t.current))
  unfold eventStep
  cases stripPrefix "Format:".toList line with
  | some d => exact h'
  | none =>
    simp only
    cases eventKind line with
    | none => exact h'
    | some p =>
      obtain ⟨k, d⟩ := p
      simp only
      cases eventData k (trim d) (s.fmt.getD eventFormat) with
      | error e => exact h'
      | ok e =>
        simp only [List.map_append, List.map_cons, List.map_nil]
        exact spanFor_bounded lo t _ h

theorem collectData_mono (n : Nat) : ∀ acc t d t', collectData n acc t = some (d, t') → t.off ≤ t'.off := by
  induction n with
  | zero => intro acc t d t' h; cases h
  | succ n ih =>
    intro acc t d t' h
    rw [collectData] at h
    have stop : some (acc, t) = some (d, t') → t.off ≤ t'.off := by
      intro h
      simp only [Option.some.injEq, Prod.mk.injEq] at h
      rw [h.2]; exact Nat.le_refl _
    have go : ∀ acc', collectData n acc' t.skipLine = some (d, t') → t.off ≤ t'.off := fun acc' h => Nat.le_trans (skipLine_mono t) (ih _ _ _ _ h)
    by_cases h1 : t.rest = [] ∨ t.atSection = true
    · rw [if_pos h1] at h; exact stop h
    · rw [if_neg h1] at h
      by_cases h2 : trim t.current = [] ∨ startsWith ['['] (trim t.current) = true
      · rw [if_pos h2] at h; exact stop h
      · rw [if_neg h2] at h
        by_cases h3 : startsWith [';'] (trim t.current) = true ∨ startsWith ['!'] (trim t.current) = true
        · rw [if_pos h3] at h; exact go _ h
        · rw [if_neg h3] at h
          by_cases h4 : startsWith "# ".toList (trim t.current) = true ∨ trim t.current = ['#']
          · rw [if_pos h4] at h; exact stop h
          · rw [if_neg h4] at h; exact go _ h

theorem parseEntry_inv {key : Str} {t t' : Tr} {e : Option Media} (h : parseEntry key t = some (e, t')) :
    Bounded t.off t'.off (e.toList.map (·.span)) := by
  unfold parseEntry at h
  have hs : some (none, t.skipLine) = some (e, t') → Bounded t.off t'.off (e.toList.map (·.span)) := by
    intro h
    simp only [Option.some.injEq, Prod.mk.injEq] at h
    rw [← h.1, ← h.2]
    exact Bounded.nil (skipLine_mono t)
  cases hc : splitOnce ':' t.current with
  | none => rw [hc] at h; exact hs h
  | some p =>
    obtain ⟨k, v⟩ := p
    rw [hc] at h
    simp only at h
    by_cases hk : trim k = key
    · rw [if_pos hk] at h
      cases hd : collectData (t.rest.length + 1) [] t.skipLine with
      | none => rw [hd] at h; cases h
      | some q =>
        obtain ⟨d, u⟩ := q
        rw [hd] at h
        simp only [Option.some.injEq, Prod.mk.injEq] at h
        obtain ⟨rfl, rfl⟩ := h
        have := Nat.le_trans (skipLine_mono t) (collectData_mono _ _ _ _ _ hd)
        exact Bounded.single (Nat.le_refl _) this (Nat.le_refl _)
    · rw [if_neg hk] at h; exact hs h

theorem binaryLoop_inv (key : Str) (lo : Nat) (n : Nat) : ∀ acc t l t', Bounded lo t.off (acc.map (·.span)) → binaryLoop key n acc t = some (l, t') →
    Bounded lo t'.off (l.map (·.span)) := by
  induction n with
  | zero => intro acc t l t' _ h; cases h
  | succ n ih =>
    intro acc t l t' hb h
    rw [binaryLoop] at h
    by_cases h1 : t.rest = [] ∨ t.atSection = true
    · rw [if_pos h1] at h
      simp only [Option.some.injEq, Prod.mk.injEq] at h
      obtain ⟨rfl, rfl⟩ := h
      exact hb
    · rw [if_neg h1] at h
      cases hs : skipBlank isBinComment (t.rest.length + 1) t with
      | none => rw [hs] at h; cases h
      | some u =>
        rw [hs] at h
        simp only at h
        have hb := hb.mono (skipBlank_mono _ _ _ _ hs)
        by_cases h2 : u.rest = [] ∨ u.atSection = true
        · rw [if_pos h2] at h
          simp only [Option.some.injEq, Prod.mk.injEq] at h
          obtain ⟨rfl, rfl⟩ := h
          exact hb
        · rw [if_neg h2] at h
          cases he : parseEntry key u with
          | none => rw [he] at h; cases h
          | some p =>
            obtain ⟨e, v⟩ := p
            rw [he] at h
            simp only at h
            refine ih _ _ _ _ ?_ h
            rw [List.map_append]
            exact hb.append (parseEntry_inv he)

/-! ## The whole source -/

/-- Everything found so far is in order and before the place reached. -/
def Inv (p : St) : Prop := Bounded 0 p.off (p.sections.flatMap places)

theorem St.skipLine_inv {p : St} (h : Inv p) : Inv p.skipLine ∧ p.off ≤ p.skipLine.off := by
  unfold St.skipLine
  cases splitOnce '\n' p.rest with
  | none => exact ⟨h.mono (Nat.le_add_right _ _), Nat.le_add_right _ _⟩
  | some q =>
    have : p.off ≤ p.off + byteLen q.1 + 1 := by omega
    exact ⟨h.mono this, this⟩

theorem skipTop_inv (n : Nat) : ∀ p q, Inv p → skipTop n p = some q → Inv q := by
  induction n with
  | zero => intro p q _ h; cases h
  | succ n ih =>
    intro p q hp h
    rw [skipTop] at h
    by_cases h1 : p.rest = []
    · rw [if_pos h1] at h; injection h with h; exact h ▸ hp
    · rw [if_neg h1] at h
      by_cases h2 : startsWith [';'] (trimStart p.rest) = true ∨ startsWith "!:".toList (trimStart p.rest) = true
      · rw [if_pos h2] at h; exact ih _ _ (St.skipLine_inv hp).1 h
      · rw [if_neg h2] at h
        by_cases h3 : trimStart p.rest ≠ p.rest
        · rw [if_pos h3] at h
          refine ih _ _ ?_ h
          exact Bounded.mono hp (Nat.le_add_right _ _)
        · rw [if_neg h3] at h; injection h with h; exact h ▸ hp

theorem skipToNext_inv (n : Nat) : ∀ p q, Inv p → skipToNext n p = some q → Inv q := by
  induction n with
  | zero => intro p q _ h; cases h
  | succ n ih =>
    intro p q hp h
    rw [skipToNext] at h
    by_cases h1 : p.rest = []
    · rw [if_pos h1] at h; injection h with h; exact h ▸ hp
    · rw [if_neg h1] at h
      by_cases h2 : atNext p.rest = true
      · rw [if_pos h2] at h; injection h with h; exact h ▸ hp
      · rw [if_neg h2] at h; exact ih _ _ (St.skipLine_inv hp).1 h

theorem inv_section {p q : St} {sec : Section} (hp : Inv p) (hs : q.sections = p.sections ++ [sec]) (hb : Bounded p.off q.off (places sec)) : Inv q := by
  unfold Inv
  rw [hs, List.flatMap_append, List.flatMap_singleton]
  exact hp.append hb

theorem parseBody_inv (name : Str) {p q : St} (hp : Inv p) (h : parseBody name p = some q) : Inv q := by
  unfold parseBody at h
  simp only at h
  by_cases h1 : trim name = "Script Info".toList
  · rw [if_pos h1] at h
    cases hl : sectionLoop infoStep (p.rest.length + 1) ⟨[], none, []⟩ p.tracker with
    | none => rw [hl] at h; cases h
    | some r =>
      obtain ⟨s, t⟩ := r
      rw [hl] at h
      injection h with h
      subst h
      have := (sectionLoop_inv infoStep (fun _ _ => True) (fun _ _ _ _ _ => trivial) (fun _ _ _ _ => trivial) _ _ _ _ _ trivial hl).2
      exact inv_section (sec := .info s.fields (t.spanFrom p.tracker)) hp rfl (Bounded.single (Nat.le_refl _) this (Nat.le_refl _))
  · rw [if_neg h1] at h
    by_cases h2 : trim name = "V4+ Styles".toList ∨ trim name = "V4 Styles".toList ∨ trim name = "V4++ Styles".toList
    · rw [if_pos h2] at h
      cases hl : sectionLoop styleStep (p.rest.length + 1) ⟨none, [], []⟩ p.tracker with
      | none => rw [hl] at h; cases h
      | some r =>
        obtain ⟨s, t⟩ := r
        rw [hl] at h
        injection h with h
        subst h
        have := (sectionLoop_inv styleStep (fun (s : StylesSt) o => Bounded p.off o (s.styles.map (fun x : Style × Span => x.2))) (fun s a b h hab => h.mono hab)
          (fun s t line h => styleStep_inv p.off s t line h) _ _ _ _ _ (Bounded.nil (Nat.le_refl _)) hl).1
        exact inv_section (sec := .styles s.styles) hp rfl this
    · rw [if_neg h2] at h
      by_cases h3 : trim name = "Events".toList
      · rw [if_pos h3] at h
        cases hl : sectionLoop eventStep (p.rest.length + 1) ⟨none, [], []⟩ p.tracker with
        | none => rw [hl] at h; cases h
        | some r =>
          obtain ⟨s, t⟩ := r
          rw [hl] at h
          injection h with h
          subst h
          have := (sectionLoop_inv eventStep (fun (s : EventsSt) o => Bounded p.off o (s.events.map (fun x : Event × Span => x.2))) (fun s a b h hab => h.mono hab)
            (fun s t line h => eventStep_inv p.off s t line h) _ _ _ _ _ (Bounded.nil (Nat.le_refl _)) hl).1
          exact inv_section (sec := .events s.events) hp rfl this
      · rw [if_neg h3] at h
        by_cases h4 : trim name = "Fonts".toList
        · rw [if_pos h4] at h
          cases hl : binaryLoop "fontname".toList (p.rest.length + 1) [] p.tracker with
          | none => rw [hl] at h; cases h
          | some r =>
            obtain ⟨l, t⟩ := r
            rw [hl] at h
            injection h with h
            subst h
            exact inv_section (sec := .fonts l) hp rfl (binaryLoop_inv _ p.off _ _ _ _ _ (Bounded.nil (Nat.le_refl _)) hl)
        · rw [if_neg h4] at h
          by_cases h5 : trim name = "Graphics".toList
          · rw [if_pos h5] at h
            cases hl : binaryLoop "filename".toList (p.rest.length + 1) [] p.tracker with
            | none => rw [hl] at h; cases h
            | some r =>
              obtain ⟨l, t⟩ := r
              rw [hl] at h
              injection h with h
              subst h
              exact inv_section (sec := .graphics l) hp rfl (binaryLoop_inv _ p.off _ _ _ _ _ (Bounded.nil (Nat.le_refl _)) hl)
          · rw [if_neg h5] at h
            cases hk : skipToNext (p.rest.length + 1) p with
            | none => rw [hk] at h; cases h
            | some u =>
              rw [hk] at h
              simp only at h
              cases hk2 : skipToNext (u.rest.length + 1) u with
              | none => rw [hk2] at h; cases h
              | some v =>
                rw [hk2] at h
                injection h with h
                subst h
                have : Inv v := skipToNext_inv _ _ _ (skipToNext_inv _ _ _ hp hk) hk2
                exact this

theorem parseOne_inv {p q : St} (hp : Inv p) (h : parseOne p = some q) : Inv q := by
  unfold parseOne at h
  by_cases h1 : startsWith ['['] p.rest = true
  · rw [if_pos h1] at h
    cases hs : splitOnce ']' p.rest with
    | none => rw [hs] at h; exact skipToNext_inv _ _ _ (by exact hp) h
    | some r =>
      obtain ⟨a, r⟩ := r
      rw [hs] at h
      have hp' : Inv { p with rest := r, off := p.off + byteLen a + 1 } := by
        have : p.off ≤ p.off + byteLen a + 1 := by omega
        exact Bounded.mono hp this
      exact parseBody_inv _ (St.skipLine_inv hp').1 h
  · rw [if_neg h1] at h
    exact skipToNext_inv _ _ _ (by exact hp) h

theorem mainLoop_inv (n : Nat) : ∀ p q, Inv p → mainLoop n p = some q → Inv q := by
  induction n with
  | zero => intro p q _ h; cases h
  | succ n ih =>
    intro p q hp h
    rw [mainLoop] at h
    by_cases h1 : p.rest = []
    · rw [if_pos h1] at h; injection h with h; exact h ▸ hp
    · rw [if_neg h1] at h
      cases hs : skipTop (p.rest.length + 1) p with
      | none => rw [hs] at h; cases h
      | some u =>
        rw [hs] at h
        simp only at h
        have hu := skipTop_inv _ _ _ hp hs
        by_cases h2 : u.rest = []
        · rw [if_pos h2] at h; injection h with h; exact h ▸ hu
        · rw [if_neg h2] at h
          cases ho : parseOne u with
          | none => rw [ho] at h; cases h
          | some v =>
            rw [ho] at h
            exact ih _ _ (parseOne_inv hu ho) h

/-- Places in a parsed script follow each other. -/
theorem parse_ordered {src : Str} {s : Script} (h : parse src = some s) : Ordered (s.sections.flatMap places) := by
  unfold parse at h
  by_cases h1 : byteLen src > 50 * 1024 * 1024
  · rw [if_pos h1] at h
    injection h with h
    subst h
    exact ⟨by simp, .nil⟩
  · rw [if_neg h1] at h
    cases hm : mainLoop (src.length + 1) (initial src) with
    | none => rw [hm] at h; cases h
    | some p =>
      rw [hm] at h
      injection h with h
      subst h
      have hi : Inv (initial src) := by
        unfold Inv
        have : (initial src).sections = [] := by
          unfold initial
          cases src with
          | nil => rfl
          | cons c r =>
            simp only
            by_cases hc : c = Char.ofNat 0xFEFF
            · rw [if_pos hc]
            · rw [if_neg hc]
        rw [this]
        exact Bounded.nil (Nat.zero_le _)
      exact (mainLoop_inv _ _ _ hi hm).1

end Verif.Parser
