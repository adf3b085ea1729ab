import Verif.Lemmas.Binary
/-! The loop over sections. -/
namespace Verif.Parser
open Verif
open Verif.Ast

theorem trimStart_idem (s : Str) : trimStart (trimStart s) = trimStart s := by
  cases e : trimStart s with
  | nil => rfl
  | cons c x => exact trimStart_cons (dropWhile_head s c (by unfold trimStart at e; rw [e]; rfl))

theorem opens_trimStart (s : Str) : opens (trimStart s) = opens s := by
  unfold opens; rw [trimStart_idem]

theorem trimStart_suffix (s : Str) : trimStart s <:+ s := List.dropWhile_suffix _

theorem tail_trimStart (s : Str) : tail (trimStart s) = tail s := by
  cases ho : opens s with
  | true =>
    rw [(at_section ho).2, (at_section (by rw [opens_trimStart, ho])).2, trimStart_idem]
  | false =>
    induction hn : s.length using Nat.strongRecOn generalizing s with
    | ind n ih =>
      rcases line_cases s with ⟨l, r, rfl, hl⟩ | hl
      · have hlo := not_opens_line ho
        rw [tail_line hl hlo]
        cases e : trimStart l with
        | nil =>
          have hw : ∀ c ∈ l ++ ['\n'], isWs c = true := by
            intro c hc
            rcases List.mem_append.1 hc with h1 | h1
            · have := List.takeWhile_append_dropWhile (p := isWs) (l := l)
              rw [show l.dropWhile isWs = [] from e, List.append_nil] at this
              rw [← this] at h1
              exact takeWhile_all l c h1
            · rw [List.mem_singleton.1 h1]; exact isWs_nl
          have e2 : trimStart (l ++ '\n' :: r) = trimStart r := by
            have : l ++ '\n' :: r = (l ++ ['\n']) ++ r := by simp
            rw [this, trimStart_append_ws _ hw]
          rw [e2]
          have hor : opens r = false := by
            rw [← opens_trimStart, ← e2, opens_trimStart, ho]
          exact ih r.length (by simp at hn; omega) r hor rfl
        | cons c x =>
          have hc := dropWhile_head l c (by unfold trimStart at e; rw [e]; rfl)
          have e2 : trimStart (l ++ '\n' :: r) = (c :: x) ++ '\n' :: r := by
            conv => lhs; rw [← List.takeWhile_append_dropWhile (p := isWs) (l := l), show l.dropWhile isWs = c :: x from e,
              List.append_assoc]
            rw [trimStart_append_ws _ (takeWhile_all l)]
            exact trimStart_cons hc
          have hm : '\n' ∉ c :: x := by
            rw [← e]; exact fun h => hl ((trimStart_suffix l).subset h)
          rw [e2, tail_line hm (by rw [← e, opens_trimStart, hlo])]
      · rw [tail_last hl ho, tail_last (fun h => hl ((trimStart_suffix s).subset h)) (by rw [opens_trimStart, ho])]

/-! ## The state and the tracker -/

/-- A state moved on. -/
def St.goto (p : St) (t : Tr) : St := { p with rest := t.rest, off := t.off, line := t.line }

theorem St.skipLine_eq (p : St) : p.skipLine = p.goto p.tracker.skipLine := by
  unfold St.skipLine Tr.skipLine St.tracker St.goto
  simp only
  cases splitOnce '\n' p.rest with
  | none => rfl
  | some q => rfl

theorem St.skipLine_rest (p : St) : p.skipLine.rest = p.tracker.skipLine.rest := by rw [St.skipLine_eq]; rfl

/-- Two states that differ only in their places. -/
def Same (p q : St) : Prop :=
  q.version = p.version ∧ q.sections = p.sections ∧ q.issues = p.issues ∧ q.stylesFmt = p.stylesFmt ∧
    q.eventsFmt = p.eventsFmt

theorem Same.rfl {p : St} : Same p p := ⟨Eq.refl _, Eq.refl _, Eq.refl _, Eq.refl _, Eq.refl _⟩

theorem Same.trans {p q r : St} (h : Same p q) (g : Same q r) : Same p r :=
  ⟨g.1.trans h.1, g.2.1.trans h.2.1, g.2.2.1.trans h.2.2.1, g.2.2.2.1.trans h.2.2.2.1, g.2.2.2.2.trans h.2.2.2.2⟩

theorem same_skipLine (p : St) : Same p p.skipLine := by
  rw [St.skipLine_eq]; exact ⟨rfl, rfl, rfl, rfl, rfl⟩

theorem St.skipLine_lt {p : St} (h : p.rest ≠ []) : p.skipLine.rest.length < p.rest.length := by
  rw [St.skipLine_rest]; exact Parser.skipLine_lt (t := p.tracker) h

theorem St.skipLine_suffix (p : St) : p.skipLine.rest <:+ p.rest := by
  rw [St.skipLine_rest]; exact Parser.skipLine_suffix p.tracker

theorem St.skipLine_bytes (p : St) : p.skipLine.off + byteLen p.skipLine.rest = p.off + byteLen p.rest := by
  rw [St.skipLine_eq]; exact Parser.skipLine_bytes p.tracker

theorem St.skipLine_tail {p : St} (h : opens p.rest = false) : tail p.skipLine.rest = tail p.rest := by
  rw [St.skipLine_rest]
  exact tail_step (t := p.tracker) (current_opens (t := p.tracker) h)

theorem byteLen_suffix {a b : Str} (h : a <:+ b) : byteLen a ≤ byteLen b := by
  obtain ⟨x, rfl⟩ := h
  rw [byteLen_append]; omega

theorem trimStart_lt {s : Str} (h : trimStart s ≠ s) : (trimStart s).length < s.length := by
  have h1 := trimStart_suffix s
  have h2 := h1.length_le
  rcases Nat.lt_or_ge (trimStart s).length s.length with h3 | h3
  · exact h3
  · exact absurd (h1.eq_of_length_le h3) h

theorem startsWith_opens {a : Char} {s x : Str} (ha : a ≠ '[') (h : startsWith (a :: x) (trimStart s) = true) :
    opens s = false := by
  obtain ⟨r, hr⟩ := startsWith_iff.1 h
  unfold opens
  rw [hr]
  show (stripPrefix ['['] (a :: (x ++ r))).isSome = false
  rw [stripPrefix, if_neg (Ne.symm ha)]; rfl

/-- Skipping to the first thing said between sections. -/
theorem skipTop_spec : ∀ (n : Nat) (p : St), p.rest.length < n → ∃ q, skipTop n p = some q ∧ q.rest <:+ p.rest ∧
    tail q.rest = tail p.rest ∧ q.off + byteLen q.rest = p.off + byteLen p.rest ∧ Same p q ∧
    (q.rest = [] ∨ (trimStart q.rest = q.rest ∧
      ¬ (startsWith [';'] (trimStart q.rest) = true ∨ startsWith "!:".toList (trimStart q.rest) = true)))
  | 0, _, h => by omega
  | n + 1, p, h => by
    rw [skipTop]
    by_cases h0 : p.rest = []
    · rw [if_pos h0]
      exact ⟨p, rfl, List.suffix_refl _, rfl, rfl, .rfl, Or.inl h0⟩
    rw [if_neg h0]
    by_cases h1 : startsWith [';'] (trimStart p.rest) = true ∨ startsWith "!:".toList (trimStart p.rest) = true
    · rw [if_pos h1]
      have ho : opens p.rest = false := by
        rcases h1 with h1 | h1
        · exact startsWith_opens (a := ';') (x := []) (by decide) h1
        · exact startsWith_opens (a := '!') (x := [':']) (by decide) h1
      have := St.skipLine_lt h0
      obtain ⟨q, e1, e2, e3, e4, e5, e6⟩ := skipTop_spec n p.skipLine (by omega)
      exact ⟨q, e1, e2.trans p.skipLine_suffix, by rw [e3, St.skipLine_tail ho], by rw [e4, St.skipLine_bytes],
        (same_skipLine p).trans e5, e6⟩
    rw [if_neg h1]
    by_cases h2 : trimStart p.rest ≠ p.rest
    · rw [if_pos h2]
      have := trimStart_lt h2
      obtain ⟨q, e1, e2, e3, e4, e5, e6⟩ := skipTop_spec n
        { p with rest := trimStart p.rest, off := p.off + (byteLen p.rest - byteLen (trimStart p.rest)) } (by simp only; omega)
      simp only at e2 e3 e4
      refine ⟨q, e1, e2.trans (trimStart_suffix _), by rw [e3, tail_trimStart], ?_, e5, e6⟩
      have := byteLen_suffix (trimStart_suffix p.rest)
      omega
    · rw [if_neg h2]
      exact ⟨p, rfl, List.suffix_refl _, rfl, rfl, .rfl, Or.inr ⟨by simpa using h2, h1⟩⟩

theorem atNext_opens {s : Str} (h : atNext s = true) : opens s = true := by
  unfold atNext at h
  rw [Bool.and_eq_true] at h
  exact h.1

theorem atNext_trimStart (s : Str) : atNext (trimStart s) = atNext s := by
  unfold atNext; rw [trimStart_idem]

/-- What follows is a header, or nothing. -/
def Ready (s : Str) : Prop := tail s = [] ∨ atNext (tail s) = true

theorem ready_open {s : Str} (h : Ready s) (ho : opens s = true) : atNext s = true := by
  have e := (at_section ho).2
  rcases h with h | h
  · exfalso
    rw [h] at e
    unfold opens at ho
    rw [← e] at ho
    exact absurd ho (by decide)
  · rw [e, atNext_trimStart] at h; exact h

/-- Skipping to the next header. -/
theorem skipToNext_spec : ∀ (n : Nat) (p : St), p.rest.length < n → ∃ q, skipToNext n p = some q ∧ q.rest <:+ p.rest ∧
    q.off + byteLen q.rest = p.off + byteLen p.rest ∧ Same p q ∧ (q.rest = [] ∨ atNext q.rest = true) ∧
    (p.rest ≠ [] → atNext p.rest = false → q.rest.length < p.rest.length) ∧ (Ready p.rest → tail q.rest = tail p.rest)
  | 0, _, h => by omega
  | n + 1, p, h => by
    rw [skipToNext]
    by_cases h0 : p.rest = []
    · rw [if_pos h0]
      exact ⟨p, rfl, List.suffix_refl _, rfl, .rfl, Or.inl h0, fun h => absurd h0 h, fun _ => rfl⟩
    rw [if_neg h0]
    by_cases h1 : atNext p.rest = true
    · rw [if_pos h1]
      exact ⟨p, rfl, List.suffix_refl _, rfl, .rfl, Or.inr h1, (fun _ e => absurd (h1.symm.trans e) (by decide)), fun _ => rfl⟩
    rw [if_neg h1]
    have hlt := St.skipLine_lt h0
    obtain ⟨q, e1, e2, e3, e4, e5, e6, e7⟩ := skipToNext_spec n p.skipLine (by omega)
    refine ⟨q, e1, e2.trans p.skipLine_suffix, by rw [e3, St.skipLine_bytes], (same_skipLine p).trans e4, e5, ?_, ?_⟩
    · intro _ _
      have := e2.length_le
      omega
    · intro hr
      have ho : opens p.rest = false := by
        cases e : opens p.rest with
        | false => rfl
        | true => exact absurd (ready_open hr e) h1
      have ht := St.skipLine_tail ho
      rw [e7 (by unfold Ready; rw [ht]; exact hr), ht]

theorem skipToNext_at {n : Nat} {p : St} (h : p.rest = [] ∨ atNext p.rest = true) : skipToNext (n + 1) p = some p := by
  rw [skipToNext]
  rcases h with h | h
  · rw [if_pos h]
  · by_cases h0 : p.rest = []
    · rw [if_pos h0]
    · rw [if_neg h0, if_pos h]

/-! ## It always ends -/

theorem start_tracker (p : St) : p.tracker.Start := Or.inl rfl

theorem parseBody_total (name : Str) (p : St) : ∃ q, parseBody name p = some q ∧ q.rest.length ≤ p.rest.length := by
  have hlt : p.tracker.rest.length < p.rest.length + 1 := by
    show p.rest.length < _
    omega
  unfold parseBody
  simp only
  by_cases h1 : trim name = "Script Info".toList
  · rw [if_pos h1]
    obtain ⟨t', e, -, hs, -⟩ := sectionLoop_spec local_info _ ⟨[], none, []⟩ p.tracker (start_tracker p) hlt
    rw [e]
    exact ⟨_, rfl, hs.length_le⟩
  rw [if_neg h1]
  by_cases h2 : trim name = "V4+ Styles".toList ∨ trim name = "V4 Styles".toList ∨ trim name = "V4++ Styles".toList
  · rw [if_pos h2]
    obtain ⟨t', e, -, hs, -⟩ := sectionLoop_spec local_style _ ⟨none, [], []⟩ p.tracker (start_tracker p) hlt
    rw [e]
    exact ⟨_, rfl, hs.length_le⟩
  rw [if_neg h2]
  by_cases h3 : trim name = "Events".toList
  · rw [if_pos h3]
    obtain ⟨t', e, -, hs, -⟩ := sectionLoop_spec local_event _ ⟨none, [], []⟩ p.tracker (start_tracker p) hlt
    rw [e]
    exact ⟨_, rfl, hs.length_le⟩
  rw [if_neg h3]
  by_cases h4 : trim name = "Fonts".toList
  · rw [if_pos h4]
    obtain ⟨l, t', e, -, -, hs, -⟩ := binaryLoop_spec goodKey_font _ [] p.tracker (start_tracker p) hlt
    rw [e]
    exact ⟨_, rfl, hs.length_le⟩
  rw [if_neg h4]
  by_cases h5 : trim name = "Graphics".toList
  · rw [if_pos h5]
    obtain ⟨l, t', e, -, -, hs, -⟩ := binaryLoop_spec goodKey_graphic _ [] p.tracker (start_tracker p) hlt
    rw [e]
    exact ⟨_, rfl, hs.length_le⟩
  rw [if_neg h5]
  obtain ⟨q, e1, e2, -, -, e5, -, -⟩ := skipToNext_spec (p.rest.length + 1) p (by omega)
  rw [e1]
  simp only
  rw [skipToNext_at e5]
  exact ⟨_, rfl, e2.length_le⟩

theorem parseOne_total {p : St} (h : p.rest ≠ []) (ht : trimStart p.rest = p.rest) : ∃ q, parseOne p = some q ∧ q.rest.length < p.rest.length := by
  unfold parseOne
  by_cases h1 : startsWith ['['] p.rest = true
  · rw [if_pos h1]
    cases e : splitOnce ']' p.rest with
    | some ar =>
      obtain ⟨a, r⟩ := ar
      simp only
      obtain ⟨q, e1, e2⟩ := parseBody_total (a.drop 1) ({ p with rest := r, off := p.off + byteLen a + 1 }.skipLine)
      refine ⟨q, e1, ?_⟩
      have := (St.skipLine_suffix { p with rest := r, off := p.off + byteLen a + 1 }).length_le
      have h2 : p.rest.length = a.length + (r.length + 1) := by rw [(splitOnce_some e).1]; simp
      simp only at this
      omega
    | none =>
      simp only
      obtain ⟨q, e1, -, -, -, -, e6, -⟩ := skipToNext_spec (p.rest.length + 1) { p with issues := p.issues ++ [.unclosed p.line] }
        (by simp only; omega)
      refine ⟨q, e1, e6 h ?_⟩
      simp only
      cases ea : atNext p.rest with
      | false => rfl
      | true =>
        exfalso
        unfold atNext at ea
        rw [Bool.and_eq_true] at ea
        have hm : ']' ∈ (trimStart p.rest).takeWhile (· ≠ '\n') := by simpa using ea.2
        exact splitOnce_eq_none e ((trimStart_suffix p.rest).subset ((List.takeWhile_prefix _).subset hm))
  · rw [if_neg h1]
    obtain ⟨q, e1, e2, -, -, -, e6, -⟩ := skipToNext_spec (p.rest.length + 1) { p with issues := p.issues ++ [.noHeader p.line] }
      (by simp only; omega)
    refine ⟨q, e1, e6 h ?_⟩
    simp only
    cases ea : atNext p.rest with
    | false => rfl
    | true =>
      exfalso
      have := atNext_opens ea
      unfold opens at this
      rw [ht] at this
      exact h1 this

theorem mainLoop_total : ∀ (n : Nat) (p : St), p.rest.length < n → ∃ q, mainLoop n p = some q
  | 0, _, h => by omega
  | n + 1, p, h => by
    rw [mainLoop]
    by_cases h0 : p.rest = []
    · rw [if_pos h0]; exact ⟨p, rfl⟩
    rw [if_neg h0]
    obtain ⟨q, e1, e2, -, -, -, e6⟩ := skipTop_spec (p.rest.length + 1) p (by omega)
    rw [e1]
    simp only
    by_cases h1 : q.rest = []
    · rw [if_pos h1]; exact ⟨q, rfl⟩
    rw [if_neg h1]
    have ht : trimStart q.rest = q.rest := by
      rcases e6 with e | e
      · exact absurd e h1
      · exact e.1
    obtain ⟨r, f1, f2⟩ := parseOne_total h1 ht
    rw [f1]
    have := e2.length_le
    exact mainLoop_total n r (by omega)

theorem initial_rest (src : Str) : (initial src).rest.length ≤ src.length := by
  unfold initial
  cases src with
  | nil => exact Nat.le_refl _
  | cons c s =>
    simp only
    by_cases h : c = Char.ofNat 0xFEFF
    · rw [if_pos h]; simp
    · rw [if_neg h]; simp

theorem parse_total (src : Str) : ∃ s, parse src = some s := by
  unfold parse
  by_cases h : byteLen src > 50 * 1024 * 1024
  · rw [if_pos h]; exact ⟨_, rfl⟩
  · rw [if_neg h]
    have := initial_rest src
    obtain ⟨q, e⟩ := mainLoop_total (src.length + 1) (initial src) (by omega)
    rw [e]
    exact ⟨_, rfl⟩

/-! ## One section after the other -/

/-- At a place where nothing is to be skipped. -/
theorem skipTop_at {n : Nat} {p : St} (h : p.rest = [] ∨ (trimStart p.rest = p.rest ∧
      ¬ (startsWith [';'] (trimStart p.rest) = true ∨ startsWith "!:".toList (trimStart p.rest) = true))) :
    skipTop (n + 1) p = some p := by
  rw [skipTop]
  by_cases h0 : p.rest = []
  · rw [if_pos h0]
  · rw [if_neg h0]
    rcases h with h | ⟨h1, h2⟩
    · exact absurd h h0
    · rw [if_neg h2, if_neg (by simp [h1])]

/-- The loop may be entered where skipping stops. -/
theorem mainLoop_skipTop {n : Nat} {p q : St} {k : Nat} (hk : p.rest.length < k) (h : skipTop k p = some q) :
    mainLoop (n + 1) p = mainLoop (n + 1) q := by
  have key : ∀ k p, p.rest.length < k → skipTop k p = some q → skipTop (p.rest.length + 1) p = some q := by
    intro k
    induction k with
    | zero => intro p h; omega
    | succ k ih =>
      intro p hk h
      rw [skipTop] at h ⊢
      by_cases h0 : p.rest = []
      · rw [if_pos h0] at h ⊢; exact h
      rw [if_neg h0] at h ⊢
      have mono : ∀ p', p'.rest.length < p.rest.length → skipTop k p' = some q → skipTop p.rest.length p' = some q := by
        intro p' hp' hq
        have h1 := ih p' (by omega) hq
        clear hq
        -- more rounds do not matter
        have more : ∀ a p' , skipTop a p' = some q → ∀ b, a ≤ b → skipTop b p' = some q := by
          intro a
          induction a with
          | zero => intro p' h; simp [skipTop] at h
          | succ a ih2 =>
            intro p' h b hb
            obtain ⟨b, rfl⟩ : ∃ c, b = c + 1 := ⟨b - 1, by omega⟩
            rw [skipTop] at h ⊢
            by_cases g0 : p'.rest = []
            · rw [if_pos g0] at h ⊢; exact h
            rw [if_neg g0] at h ⊢
            by_cases g1 : startsWith [';'] (trimStart p'.rest) = true ∨ startsWith "!:".toList (trimStart p'.rest) = true
            · rw [if_pos g1] at h ⊢; exact ih2 _ h b (by omega)
            rw [if_neg g1] at h ⊢
            by_cases g2 : trimStart p'.rest ≠ p'.rest
            · rw [if_pos g2] at h ⊢; exact ih2 _ h b (by omega)
            · rw [if_neg g2] at h ⊢; exact h
        exact more _ _ h1 _ (by omega)
      by_cases g1 : startsWith [';'] (trimStart p.rest) = true ∨ startsWith "!:".toList (trimStart p.rest) = true
      · rw [if_pos g1] at h ⊢; exact mono _ (St.skipLine_lt h0) h
      rw [if_neg g1] at h ⊢
      by_cases g2 : trimStart p.rest ≠ p.rest
      · rw [if_pos g2] at h ⊢; exact mono _ (trimStart_lt g2) h
      · rw [if_neg g2] at h ⊢; exact h
  have hp := key k p hk h
  have hq : skipTop (q.rest.length + 1) q = some q := by
    obtain ⟨q', e1, -, -, -, -, e6⟩ := skipTop_spec k p hk
    rw [h] at e1
    obtain rfl := Option.some.inj e1
    exact skipTop_at e6
  rw [mainLoop, mainLoop, hp, hq]
  by_cases h0 : p.rest = []
  · have : q = p := by
      rw [skipTop, if_pos h0] at hp
      exact (Option.some.inj hp).symm
    rw [this, if_pos h0]
  · rw [if_neg h0]
    by_cases h1 : q.rest = []
    · simp only [if_pos h1]
    · simp only [if_neg h1]

theorem tail_eq_nil {s : Str} (h : tail s = []) : opens s = false := by
  cases e : opens s with
  | false => rfl
  | true =>
    rw [(at_section e).2] at h
    unfold opens at e
    rw [h] at e
    exact absurd e (by decide)

/-- States that differ in their places, up to what is said before the first section. -/
def Alike (p q : St) : Prop :=
  q.version = p.version ∧ q.sections = p.sections ∧
    (q.issues = p.issues ∨ ∃ l, q.issues = p.issues ++ [.noHeader l]) ∧ q.stylesFmt = p.stylesFmt ∧ q.eventsFmt = p.eventsFmt

theorem Same.alike {p q : St} (h : Same p q) : Alike p q := ⟨h.1, h.2.1, Or.inl h.2.2.1, h.2.2.2.1, h.2.2.2.2⟩

theorem startsWith_nil_bracket : startsWith ['['] ([] : Str) = false := by decide

/-- The loop goes to the next header. -/
theorem mainLoop_reach {n : Nat} {p : St} (h : p.rest.length < n) (hr : Ready p.rest) :
    ∃ m q, mainLoop n p = mainLoop m q ∧ q.rest.length < m ∧ q.rest = tail p.rest ∧ Alike p q ∧
      q.off + byteLen q.rest = p.off + byteLen p.rest := by
  obtain ⟨n, rfl⟩ : ∃ k, n = k + 1 := ⟨n - 1, by omega⟩
  -- where skipping stops at a header or the end
  have stop : ∀ n p, p.rest.length < n + 1 → Ready p.rest → (tail p.rest = [] → trimStart p.rest = []) →
      (tail p.rest ≠ [] → opens p.rest = true) →
      ∃ m q, mainLoop (n + 1) p = mainLoop m q ∧ q.rest.length < m ∧ q.rest = tail p.rest ∧ Same p q ∧
        q.off + byteLen q.rest = p.off + byteLen p.rest := by
    intro n p h hr ha hb
    obtain ⟨q, e1, e2, e3, e4, e5, e6⟩ := skipTop_spec (p.rest.length + 1) p (by omega)
    refine ⟨n + 1, q, mainLoop_skipTop (by omega) e1, ?_, ?_, e5, e4⟩
    · have := e2.length_le; omega
    · rcases e6 with e6 | ⟨e6, -⟩
      · rw [← e3, e6, tail_nil]
      · by_cases ht : tail p.rest = []
        · -- only blanks are left
          have hw : ∀ c ∈ p.rest, isWs c = true := by
            have h1 := List.takeWhile_append_dropWhile (p := isWs) (l := p.rest)
            rw [show p.rest.dropWhile isWs = [] from ha ht, List.append_nil] at h1
            intro c hc
            rw [← h1] at hc
            exact takeWhile_all _ c hc
          rw [ht, ← e6]
          exact trimStart_eq_nil (fun c hc => hw c (e2.subset hc))
        · have ho := hb ht
          have : opens q.rest = true := by
            -- the tail of q begins the same way
            cases eo : opens q.rest with
            | true => rfl
            | false =>
              exfalso
              -- the first skipped line would have to open a section
              rw [skipTop, if_neg (by intro e; rw [e, opens_nil] at ho; cases ho)] at e1
              have g1 : ¬ (startsWith [';'] (trimStart p.rest) = true ∨ startsWith "!:".toList (trimStart p.rest) = true) := by
                rintro (g | g)
                · rw [startsWith_opens (a := ';') (x := []) (by decide) g] at ho; cases ho
                · rw [startsWith_opens (a := '!') (x := [':']) (by decide) g] at ho; cases ho
              rw [if_neg g1] at e1
              by_cases g2 : trimStart p.rest ≠ p.rest
              · rw [if_pos g2] at e1
                have hl := trimStart_lt g2
                obtain ⟨k, hk⟩ : ∃ k, p.rest.length = k + 1 := ⟨p.rest.length - 1, by omega⟩
                rw [hk, skipTop_at (Or.inr ⟨trimStart_idem _, by simp only; rw [trimStart_idem]; exact g1⟩)] at e1
                have := (Option.some.inj e1).symm
                rw [this] at eo
                simp only at eo
                rw [opens_trimStart, ho] at eo
                cases eo
              · rw [if_neg g2] at e1
                rw [← Option.some.inj e1, ho] at eo
                cases eo
          rw [← e3, (at_section this).2, e6]
  obtain ⟨q, e1, e2, e3, e4, e5, e6⟩ := skipTop_spec (p.rest.length + 1) p (by omega)
  have hm := mainLoop_skipTop (n := n) (by omega) e1
  have hqr : Ready q.rest := by unfold Ready; rw [e3]; exact hr
  have hql := e2.length_le
  by_cases h1 : q.rest = []
  · exact ⟨n + 1, q, hm, by omega, by rw [← e3, h1, tail_nil], e5.alike, e4⟩
  have ht : trimStart q.rest = q.rest := by
    rcases e6 with e | e
    · exact absurd e h1
    · exact e.1
  by_cases h2 : startsWith ['['] q.rest = true
  · have ho : opens q.rest = true := by unfold opens; rw [ht]; exact h2
    exact ⟨n + 1, q, hm, by omega, by rw [← e3, (at_section ho).2, ht], e5.alike, e4⟩
  -- something is said before the header
  have ho : atNext q.rest = false := by
    cases ea : atNext q.rest with
    | false => rfl
    | true =>
      have := atNext_opens ea
      unfold opens at this
      rw [ht] at this
      exact absurd this h2
  obtain ⟨r, f1, f2, f3, f4, f5, f6, f7⟩ := skipToNext_spec (q.rest.length + 1) { q with issues := q.issues ++ [.noHeader q.line] }
    (by simp only; omega)
  simp only at f2 f3 f6 f7
  have hlt := f6 h1 ho
  have ht7 := f7 hqr
  have hone : parseOne q = some r := by
    unfold parseOne
    rw [if_neg h2, f1]
  have hmr : mainLoop (n + 1) p = mainLoop n r := by
    rw [hm, mainLoop, if_neg h1, skipTop_at e6]
    simp only
    rw [if_neg h1, hone]
  obtain ⟨n, rfl⟩ : ∃ k, n = k + 1 := ⟨n - 1, by omega⟩
  have hrr : Ready r.rest := by unfold Ready; rw [ht7]; exact hqr
  obtain ⟨m, s, g1, g2, g3, g4, g5⟩ := stop n r (by omega) hrr
    (by
      intro e
      rcases f5 with f5 | f5
      · rw [f5]; rfl
      · have := atNext_opens f5
        rw [tail_eq_nil e] at this; cases this)
    (by
      intro e
      rcases f5 with f5 | f5
      · rw [f5, tail_nil] at e; exact absurd rfl e
      · exact atNext_opens f5)
  refine ⟨m, s, by rw [hmr, g1], g2, by rw [g3, ht7, e3], ?_, by rw [g5, f3, e4]⟩
  have h4 := f4.trans g4
  exact ⟨h4.1.trans e5.1, h4.2.1.trans e5.2.1, Or.inr ⟨q.line, by rw [h4.2.2.1]; simp only; rw [e5.2.2.1]⟩,
    h4.2.2.2.1.trans e5.2.2.2.1, h4.2.2.2.2.trans e5.2.2.2.2⟩

end Verif.Parser
