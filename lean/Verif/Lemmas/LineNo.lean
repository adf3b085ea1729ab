import Verif.Lemmas.Script
import Verif.Spec.LineNo
/-! The parser's line numbers. -/
namespace Verif.Parser
open Verif
open Verif.Ast
open Verif.Spec.Script (size)
open Verif.Spec.LineNo

/-- Blanks that end no line. -/
def Inner (w : Str) : Prop := ∀ c ∈ w, isWs c = true ∧ c ≠ '\n'

/-- A place with its right line number, at the first thing said in a line or before it. -/
def Good (src rest : Str) (off line : Nat) : Prop :=
  ∃ pre, src = pre ++ rest ∧ byteLen pre = off ∧ line = 1 + pre.count '\n' ∧
    (rest = [] ∨ ∃ a w, pre = a ++ w ∧ LineStart a ∧ Inner w)

theorem good_skipLine {src : Str} {t : Tr} (h : Good src t.rest t.off t.line) :
    Good src t.skipLine.rest t.skipLine.off t.skipLine.line := by
  obtain ⟨pre, e, hb, hl, -⟩ := h
  unfold Tr.skipLine
  cases es : splitOnce '\n' t.rest with
  | none =>
    have hn := splitOnce_eq_none es
    refine ⟨src, by simp, ?_, ?_, Or.inl rfl⟩
    · rw [e, byteLen_append, hb]
    · simp only
      rw [hl, e, List.count_append, List.count_eq_zero_of_not_mem hn, Nat.add_zero]
  | some p =>
    obtain ⟨l, r⟩ := p
    obtain ⟨e1, e2⟩ := splitOnce_some es
    refine ⟨pre ++ l ++ ['\n'], ?_, ?_, ?_, Or.inr ⟨pre ++ l ++ ['\n'], [], by simp, Or.inr (Or.inr (by simp)), by
      intro c hc; cases hc⟩⟩
    · simp only; rw [e, e1]; simp
    · simp only; rw [byteLen_append, byteLen_append, hb]; rfl
    · simp only
      rw [hl, List.count_append, List.count_append, List.count_eq_zero_of_not_mem e2]
      simp; omega

theorem good_skipWs {src : Str} {t : Tr} (h : Good src t.rest t.off t.line) :
    Good src t.skipWs.rest t.skipWs.off t.skipWs.line := by
  obtain ⟨pre, e, hb, hl, hw⟩ := h
  have hin : Inner (t.rest.takeWhile isBlank) := by
    intro c hc
    have := takeWhile_all t.rest c hc
    exact ⟨isBlank_isWs this, isBlank_ne_nl this⟩
  refine ⟨pre ++ t.rest.takeWhile isBlank, ?_, ?_, ?_, ?_⟩
  · show src = _ ++ t.rest.dropWhile isBlank
    rw [List.append_assoc, List.takeWhile_append_dropWhile, e]
  · rw [byteLen_append, hb, blanks_len]; rfl
  · show t.line = _
    rw [hl, List.count_append, List.count_eq_zero_of_not_mem (fun hm => (hin _ hm).2 rfl), Nat.add_zero]
  · rcases hw with hw | ⟨a, w, e1, e2, e3⟩
    · left; show t.rest.dropWhile isBlank = []; rw [hw]; rfl
    · right
      refine ⟨a, w ++ t.rest.takeWhile isBlank, by rw [e1]; simp, e2, ?_⟩
      intro c hc
      rcases List.mem_append.1 hc with h | h
      · exact e3 c h
      · exact hin c h

theorem skipBlank_good {src : Str} {com : Str → Bool} : ∀ (n : Nat) (t t' : Tr), skipBlank com n t = some t' →
    Good src t.rest t.off t.line → Good src t'.rest t'.off t'.line
  | 0, _, _, h, _ => by simp [skipBlank] at h
  | n + 1, t, t', h, hg => by
    rw [skipBlank] at h
    by_cases h0 : t.skipWs.rest = []
    · rw [if_pos h0] at h
      rw [← Option.some.inj h]; exact good_skipWs hg
    rw [if_neg h0] at h
    by_cases h1 : com t.skipWs.rest = true
    · rw [if_pos h1] at h
      exact skipBlank_good n _ _ h (good_skipLine (good_skipWs hg))
    rw [if_neg h1] at h
    by_cases h2 : startsWith ['\n'] t.skipWs.rest = true
    · rw [if_pos h2, skipWs_newline h2] at h
      exact skipBlank_good n _ _ h (good_skipLine hg)
    · rw [if_neg h2] at h
      rw [← Option.some.inj h]; exact good_skipWs hg

theorem sectionLoop_good {src : Str} {σ : Type} {step : σ → Tr → Str → σ} {I : σ → Prop}
    (hI : ∀ s t x, Good src t.rest t.off t.line → I s → I (step s t x)) : ∀ (n : Nat) (s s' : σ) (t t' : Tr),
    sectionLoop step n s t = some (s', t') → Good src t.rest t.off t.line → I s →
    Good src t'.rest t'.off t'.line ∧ I s'
  | 0, _, _, _, _, h, _, _ => by simp [sectionLoop] at h
  | n + 1, s, s', t, t', h, hg, hs => by
    rw [sectionLoop] at h
    by_cases h0 : t.rest = [] ∨ t.atSection = true
    · rw [if_pos h0] at h
      obtain ⟨rfl, rfl⟩ := Prod.mk.inj (Option.some.inj h)
      exact ⟨hg, hs⟩
    rw [if_neg h0] at h
    cases e : skipBlank isComment (t.rest.length + 1) t with
    | none => rw [e] at h; cases h
    | some u =>
      rw [e] at h
      simp only at h
      have hu := skipBlank_good _ _ _ e hg
      by_cases h1 : u.rest = [] ∨ u.atSection = true
      · rw [if_pos h1] at h
        obtain ⟨rfl, rfl⟩ := Prod.mk.inj (Option.some.inj h)
        exact ⟨hu, hs⟩
      rw [if_neg h1] at h
      by_cases h2 : trim u.current = []
      · rw [if_pos h2] at h
        exact sectionLoop_good hI n _ _ _ _ h (good_skipLine hu) hs
      · rw [if_neg h2] at h
        exact sectionLoop_good hI n _ _ _ _ h (good_skipLine hu) (hI _ _ _ hu hs)

theorem collectData_good {src : Str} : ∀ (n : Nat) (acc d : List Str) (t t' : Tr), collectData n acc t = some (d, t') →
    Good src t.rest t.off t.line → Good src t'.rest t'.off t'.line
  | 0, _, _, _, _, h, _ => by simp [collectData] at h
  | n + 1, acc, d, t, t', h, hg => by
    rw [collectData] at h
    by_cases h0 : t.rest = [] ∨ t.atSection = true
    · rw [if_pos h0] at h
      rw [← (Prod.mk.inj (Option.some.inj h)).2]; exact hg
    rw [if_neg h0] at h
    by_cases h1 : trim t.current = [] ∨ startsWith ['['] (trim t.current) = true
    · rw [if_pos h1] at h
      rw [← (Prod.mk.inj (Option.some.inj h)).2]; exact hg
    rw [if_neg h1] at h
    by_cases h2 : startsWith [';'] (trim t.current) = true ∨ startsWith ['!'] (trim t.current) = true
    · rw [if_pos h2] at h
      exact collectData_good n _ _ _ _ h (good_skipLine hg)
    rw [if_neg h2] at h
    by_cases h3 : startsWith "# ".toList (trim t.current) = true ∨ trim t.current = ['#']
    · rw [if_pos h3] at h
      rw [← (Prod.mk.inj (Option.some.inj h)).2]; exact hg
    · rw [if_neg h3] at h
      exact collectData_good n _ _ _ _ h (good_skipLine hg)

/-- The line number of an entry is right. -/
def SpanOk (src : Str) (sp : Span) : Prop := LineOf src sp.start sp.line

theorem spanOk_of {src : Str} {t : Tr} (h : Good src t.rest t.off t.line) {sp : Span} (h1 : sp.start = t.off)
    (h2 : sp.line = t.line) : SpanOk src sp := by
  obtain ⟨pre, e, hb, hl, -⟩ := h
  exact ⟨pre, t.rest, e, by rw [h1, ← hb]; rfl, by rw [h2, hl]⟩

theorem binaryLoop_good {src key : Str} : ∀ (n : Nat) (acc l : List Media) (t t' : Tr),
    binaryLoop key n acc t = some (l, t') → Good src t.rest t.off t.line → (∀ m ∈ acc, SpanOk src m.span) →
    Good src t'.rest t'.off t'.line ∧ ∀ m ∈ l, SpanOk src m.span
  | 0, _, _, _, _, h, _, _ => by simp [binaryLoop] at h
  | n + 1, acc, l, t, t', h, hg, ha => by
    rw [binaryLoop] at h
    by_cases h0 : t.rest = [] ∨ t.atSection = true
    · rw [if_pos h0] at h
      obtain ⟨rfl, rfl⟩ := Prod.mk.inj (Option.some.inj h)
      exact ⟨hg, ha⟩
    rw [if_neg h0] at h
    cases e : skipBlank isBinComment (t.rest.length + 1) t with
    | none => rw [e] at h; cases h
    | some u =>
      rw [e] at h
      simp only at h
      have hu := skipBlank_good _ _ _ e hg
      by_cases h1 : u.rest = [] ∨ u.atSection = true
      · rw [if_pos h1] at h
        obtain ⟨rfl, rfl⟩ := Prod.mk.inj (Option.some.inj h)
        exact ⟨hu, ha⟩
      rw [if_neg h1] at h
      unfold parseEntry at h
      cases ec : splitOnce ':' u.current with
      | none =>
        rw [ec] at h
        simp only at h
        exact binaryLoop_good n _ _ _ _ h (good_skipLine hu) (by simpa using ha)
      | some kv =>
        obtain ⟨k, v⟩ := kv
        rw [ec] at h
        simp only at h
        by_cases hk : trim k = key
        · rw [if_pos hk] at h
          cases ed : collectData (u.rest.length + 1) [] u.skipLine with
          | none => rw [ed] at h; cases h
          | some dt =>
            obtain ⟨d, t2⟩ := dt
            rw [ed] at h
            simp only at h
            refine binaryLoop_good n _ _ _ _ h (collectData_good _ _ _ _ _ ed (good_skipLine hu)) ?_
            intro m hm
            rcases List.mem_append.1 hm with hm | hm
            · exact ha m hm
            · rw [Option.toList_some, List.mem_singleton] at hm
              rw [hm]
              exact spanOk_of hu rfl rfl
        · rw [if_neg hk] at h
          simp only at h
          exact binaryLoop_good n _ _ _ _ h (good_skipLine hu) (by simpa using ha)

/-- All line numbers of a section are right. -/
def SectionOk (src : Str) : Section → Prop
  | .info _ sp => SpanOk src sp
  | .styles l => ∀ p ∈ l, SpanOk src p.2
  | .events l => ∀ p ∈ l, SpanOk src p.2
  | .fonts l => ∀ m ∈ l, SpanOk src m.span
  | .graphics l => ∀ m ∈ l, SpanOk src m.span

/-- The parser's state with its right line number. -/
def GoodSt (src : Str) (p : St) : Prop := Good src p.rest p.off p.line ∧ ∀ s ∈ p.sections, SectionOk src s

theorem good_same {src : Str} {p q : St} (h : GoodSt src p) (hs : q.sections = p.sections)
    (hg : Good src q.rest q.off q.line) : GoodSt src q := ⟨hg, by rw [hs]; exact h.2⟩

theorem goodSt_skipLine {src : Str} {p : St} (h : GoodSt src p) : GoodSt src p.skipLine := by
  apply good_same h (same_skipLine p).2.1
  rw [St.skipLine_eq]
  exact good_skipLine (t := p.tracker) h.1

theorem skipToNext_good {src : Str} : ∀ (n : Nat) (p q : St), skipToNext n p = some q → GoodSt src p → GoodSt src q
  | 0, _, _, h, _ => by simp [skipToNext] at h
  | n + 1, p, q, h, hg => by
    rw [skipToNext] at h
    by_cases h0 : p.rest = []
    · rw [if_pos h0] at h; rw [← Option.some.inj h]; exact hg
    rw [if_neg h0] at h
    by_cases h1 : atNext p.rest = true
    · rw [if_pos h1] at h; rw [← Option.some.inj h]; exact hg
    rw [if_neg h1] at h
    exact skipToNext_good n _ _ h (goodSt_skipLine hg)

theorem sections_snoc {src : Str} {l : List Section} {x : Section} (h : ∀ s ∈ l, SectionOk src s) (hx : SectionOk src x) :
    ∀ s ∈ l ++ [x], SectionOk src s := by
  intro s hs
  rcases List.mem_append.1 hs with h1 | h1
  · exact h s h1
  · rw [List.mem_singleton.1 h1]; exact hx

theorem parseBody_good {src name : Str} {p q : St} (h : parseBody name p = some q) (hg : GoodSt src p) : GoodSt src q := by
  have ht : Good src p.tracker.rest p.tracker.off p.tracker.line := hg.1
  unfold parseBody at h
  simp only at h
  by_cases h1 : trim name = "Script Info".toList
  · rw [if_pos h1] at h
    cases e : sectionLoop infoStep (p.rest.length + 1) ⟨[], none, []⟩ p.tracker with
    | none => rw [e] at h; cases h
    | some r =>
      obtain ⟨s, t'⟩ := r
      rw [e] at h
      obtain ⟨g1, -⟩ := sectionLoop_good (I := fun _ => True) (fun _ _ _ _ _ => trivial) _ _ _ _ _ e ht trivial
      rw [← Option.some.inj h]
      exact ⟨g1, sections_snoc hg.2 (spanOk_of ht rfl rfl)⟩
  rw [if_neg h1] at h
  by_cases h2 : trim name = "V4+ Styles".toList ∨ trim name = "V4 Styles".toList ∨ trim name = "V4++ Styles".toList
  · rw [if_pos h2] at h
    cases e : sectionLoop styleStep (p.rest.length + 1) ⟨none, [], []⟩ p.tracker with
    | none => rw [e] at h; cases h
    | some r =>
      obtain ⟨s, t'⟩ := r
      rw [e] at h
      obtain ⟨g1, g2⟩ := sectionLoop_good (I := fun s : StylesSt => ∀ p ∈ s.styles, SpanOk src p.2) (by
        intro s t x hgt hs
        unfold styleStep
        cases stripPrefix "Format:".toList x with
        | some d => exact hs
        | none =>
          simp only
          cases stripPrefix "Style:".toList x with
          | none => exact hs
          | some d =>
            simp only
            unfold styleInternal
            simp only
            by_cases hlen : (splitOn ',' (styleParent (trim d)).1).length < (s.fmt.getD styleFormat).length
            · rw [if_pos hlen]; exact hs
            · rw [if_neg hlen]
              intro q hq
              rcases List.mem_append.1 hq with h1 | h1
              · exact hs q h1
              · rw [List.mem_singleton.1 h1]; exact spanOk_of hgt rfl rfl) _ _ _ _ _ e ht (by intro p hp; cases hp)
      rw [← Option.some.inj h]
      exact ⟨g1, sections_snoc hg.2 g2⟩
  rw [if_neg h2] at h
  by_cases h3 : trim name = "Events".toList
  · rw [if_pos h3] at h
    cases e : sectionLoop eventStep (p.rest.length + 1) ⟨none, [], []⟩ p.tracker with
    | none => rw [e] at h; cases h
    | some r =>
      obtain ⟨s, t'⟩ := r
      rw [e] at h
      obtain ⟨g1, g2⟩ := sectionLoop_good (I := fun s : EventsSt => ∀ p ∈ s.events, SpanOk src p.2) (by
        intro s t x hgt hs
        unfold eventStep
        cases stripPrefix "Format:".toList x with
        | some d => exact hs
        | none =>
          simp only
          cases eventKind x with
          | none => exact hs
          | some kd =>
            simp only
            cases eventData kd.1 (trim kd.2) (s.fmt.getD eventFormat) with
            | error _ => exact hs
            | ok ev =>
              intro q hq
              rcases List.mem_append.1 hq with h1 | h1
              · exact hs q h1
              · rw [List.mem_singleton.1 h1]; exact spanOk_of hgt rfl rfl) _ _ _ _ _ e ht (by intro p hp; cases hp)
      rw [← Option.some.inj h]
      exact ⟨g1, sections_snoc hg.2 g2⟩
  rw [if_neg h3] at h
  by_cases h4 : trim name = "Fonts".toList
  · rw [if_pos h4] at h
    cases e : binaryLoop "fontname".toList (p.rest.length + 1) [] p.tracker with
    | none => rw [e] at h; cases h
    | some r =>
      obtain ⟨l, t'⟩ := r
      rw [e] at h
      obtain ⟨g1, g2⟩ := binaryLoop_good _ _ _ _ _ e ht (by intro m hm; cases hm)
      rw [← Option.some.inj h]
      exact ⟨g1, sections_snoc hg.2 g2⟩
  rw [if_neg h4] at h
  by_cases h5 : trim name = "Graphics".toList
  · rw [if_pos h5] at h
    cases e : binaryLoop "filename".toList (p.rest.length + 1) [] p.tracker with
    | none => rw [e] at h; cases h
    | some r =>
      obtain ⟨l, t'⟩ := r
      rw [e] at h
      obtain ⟨g1, g2⟩ := binaryLoop_good _ _ _ _ _ e ht (by intro m hm; cases hm)
      rw [← Option.some.inj h]
      exact ⟨g1, sections_snoc hg.2 g2⟩
  rw [if_neg h5] at h
  cases e : skipToNext (p.rest.length + 1) p with
  | none => rw [e] at h; cases h
  | some r =>
    rw [e] at h
    simp only at h
    cases e2 : skipToNext (r.rest.length + 1) r with
    | none => rw [e2] at h; cases h
    | some r2 =>
      rw [e2] at h
      have g := skipToNext_good _ _ _ e2 (skipToNext_good _ _ _ e hg)
      rw [← Option.some.inj h]
      exact ⟨g.1, g.2⟩

/-- Skipping blanks when no line is blank. -/
theorem good_trimStart {src : Str} (hb : NoBlankLine src) {rest : Str} {off line : Nat} (h : Good src rest off line) :
    Good src (trimStart rest) (off + (byteLen rest - byteLen (trimStart rest))) line := by
  obtain ⟨pre, e, hb1, hl, hw⟩ := h
  have hsp : rest.takeWhile isWs ++ trimStart rest = rest := List.takeWhile_append_dropWhile
  have hbl : byteLen rest = byteLen (rest.takeWhile isWs) + byteLen (trimStart rest) := by
    conv => lhs; rw [← hsp]
    rw [byteLen_append]
  have hin : rest = [] ∨ '\n' ∉ rest.takeWhile isWs := by
    rcases hw with hw | ⟨a, w, e1, e2, e3⟩
    · exact Or.inl hw
    · right
      intro hm
      rcases line_cases (rest.takeWhile isWs) with ⟨l, r, e4, hl4⟩ | h4
      · have hwl : '\n' ∉ w ++ l := by
          intro h
          rcases List.mem_append.1 h with h | h
          · exact (e3 _ h).2 rfl
          · exact hl4 h
        obtain ⟨c, hc, hcw⟩ := hb a (w ++ l) (r ++ trimStart rest) (by
          rw [e, e1]
          conv => lhs; rw [← hsp, e4]
          simp) e2 hwl
        apply hcw
        rcases List.mem_append.1 hc with h | h
        · exact (SrtDoc.white_iff c).1 (e3 c h).1
        · exact (SrtDoc.white_iff c).1 (takeWhile_all rest c (by rw [e4]; simp [h]))
      · exact h4 hm
  have hn : '\n' ∉ rest.takeWhile isWs := by
    rcases hin with h | h
    · rw [h]; simp
    · exact h
  refine ⟨pre ++ rest.takeWhile isWs, by rw [List.append_assoc, hsp, e], by rw [byteLen_append, hb1]; omega, ?_, ?_⟩
  · rw [hl, List.count_append, List.count_eq_zero_of_not_mem hn, Nat.add_zero]
  · rcases hw with hw | ⟨a, w, e1, e2, e3⟩
    · left; rw [hw]; rfl
    · right
      refine ⟨a, w ++ rest.takeWhile isWs, by rw [e1]; simp, e2, ?_⟩
      intro c hc
      rcases List.mem_append.1 hc with h | h
      · exact e3 c h
      · exact ⟨takeWhile_all rest c h, fun hx => hn (hx ▸ h)⟩

theorem skipTop_good {src : Str} (hb : NoBlankLine src) : ∀ (n : Nat) (p q : St), skipTop n p = some q → GoodSt src p → GoodSt src q
  | 0, _, _, h, _ => by simp [skipTop] at h
  | n + 1, p, q, h, hg => by
    rw [skipTop] at h
    by_cases h0 : p.rest = []
    · rw [if_pos h0] at h; rw [← Option.some.inj h]; exact hg
    rw [if_neg h0] at h
    by_cases h1 : startsWith [';'] (trimStart p.rest) = true ∨ startsWith "!:".toList (trimStart p.rest) = true
    · rw [if_pos h1] at h
      exact skipTop_good hb n _ _ h (goodSt_skipLine hg)
    rw [if_neg h1] at h
    by_cases h2 : trimStart p.rest ≠ p.rest
    · rw [if_pos h2] at h
      exact skipTop_good hb n _ _ h ⟨good_trimStart hb hg.1, hg.2⟩
    · rw [if_neg h2] at h; rw [← Option.some.inj h]; exact hg

theorem parseOne_good {src : Str} (hc : Closed src) {p q : St} (hne : p.rest ≠ []) (h : parseOne p = some q) (hg : GoodSt src p) :
    GoodSt src q := by
  unfold parseOne at h
  by_cases h1 : startsWith ['['] p.rest = true
  · rw [if_pos h1] at h
    cases e : splitOnce ']' p.rest with
    | none =>
      rw [e] at h
      exact skipToNext_good _ _ _ h ⟨hg.1, hg.2⟩
    | some ar =>
      obtain ⟨a, r⟩ := ar
      rw [e] at h
      simp only at h
      refine parseBody_good h ?_
      obtain ⟨e1, e2⟩ := splitOnce_some e
      -- the bracket is closed on its line
      obtain ⟨pre, g1, g2, g3, g4⟩ := hg.1
      have hna : '\n' ∉ a := by
        intro hm
        rcases g4 with g4 | ⟨b, w, k1, k2, k3⟩
        · exact hne g4
        obtain ⟨x, hx⟩ := startsWith_iff.1 h1
        rcases line_cases a with ⟨l, a', e3, hl⟩ | h3
        · have hsrc : src = b ++ (w ++ l) ++ ('\n' :: (a' ++ ']' :: r)) := by
            rw [g1, k1, e1, e3]; simp
          have hop : Spec.Script.Opens (w ++ l) := by
            cases l with
            | nil =>
              rw [e1, e3] at hx
              simp at hx
            | cons d l =>
              rw [e1, e3] at hx
              have hd : d = '[' := by simpa using (List.cons.inj hx).1
              exact ⟨w, l, by rw [hd], fun c hc => (SrtDoc.white_iff c).1 (k3 c hc).1⟩
          have hwl : '\n' ∉ w ++ l := by
            intro h
            rcases List.mem_append.1 h with h | h
            · exact (k3 _ h).2 rfl
            · exact hl h
          have := hc b (w ++ l) _ hsrc k2 hwl (Or.inr rfl) hop
          rcases List.mem_append.1 this with h | h
          · exact absurd (k3 _ h).1 (by decide)
          · exact e2 (by rw [e3]; simp [h])
        · exact h3 hm
      have hsk : ({ p with rest := r, off := p.off + byteLen a + 1 } : St).skipLine = p.skipLine := by
        unfold St.skipLine
        simp only
        rcases line_cases r with ⟨l, r', e3, hl⟩ | h3
        · have : splitOnce '\n' p.rest = some (a ++ ']' :: l, r') := by
            rw [e1, e3]
            have : a ++ ']' :: (l ++ '\n' :: r') = (a ++ ']' :: l) ++ '\n' :: r' := by simp
            rw [this]
            apply splitOnce_append
            simp [hna, hl]
          rw [this, e3, splitOnce_append _ hl]
          simp only
          congr 1
          rw [byteLen_append, byteLen_cons, show Char.utf8Size ']' = 1 by decide]; omega
        · have : splitOnce '\n' p.rest = none := by
            rw [e1]
            apply splitOnce_none
            simp [hna, h3]
          rw [this, splitOnce_none h3]
          simp only
          congr 1
          rw [e1, byteLen_append, byteLen_cons, show Char.utf8Size ']' = 1 by decide]; omega
      rw [hsk]
      exact goodSt_skipLine hg
  · rw [if_neg h1] at h
    exact skipToNext_good _ _ _ h ⟨hg.1, hg.2⟩

theorem mainLoop_good {src : Str} (hb : NoBlankLine src) (hc : Closed src) : ∀ (n : Nat) (p q : St), mainLoop n p = some q →
    GoodSt src p → GoodSt src q
  | 0, _, _, h, _ => by simp [mainLoop] at h
  | n + 1, p, q, h, hg => by
    rw [mainLoop] at h
    by_cases h0 : p.rest = []
    · rw [if_pos h0] at h; rw [← Option.some.inj h]; exact hg
    rw [if_neg h0] at h
    cases e : skipTop (p.rest.length + 1) p with
    | none => rw [e] at h; cases h
    | some r =>
      rw [e] at h
      simp only at h
      have hr := skipTop_good hb _ _ _ e hg
      by_cases h1 : r.rest = []
      · rw [if_pos h1] at h; rw [← Option.some.inj h]; exact hr
      rw [if_neg h1] at h
      cases e2 : parseOne r with
      | none => rw [e2] at h; cases h
      | some r2 =>
        rw [e2] at h
        exact mainLoop_good hb hc n _ _ h (parseOne_good hc h1 e2 hr)

theorem initial_good (src : Str) : GoodSt src (initial src) := by
  unfold initial
  cases src with
  | nil => exact ⟨⟨[], rfl, rfl, rfl, Or.inl rfl⟩, by intro s hs; cases hs⟩
  | cons c s =>
    simp only
    by_cases h : c = Char.ofNat 0xFEFF
    · rw [if_pos h, h]
      exact ⟨⟨[Char.ofNat 0xFEFF], rfl, rfl, rfl, Or.inr ⟨[Char.ofNat 0xFEFF], [], rfl, Or.inr (Or.inl rfl), by
        intro c hc; cases hc⟩⟩, by intro s hs; cases hs⟩
    · rw [if_neg h]
      exact ⟨⟨[], rfl, rfl, rfl, Or.inr ⟨[], [], rfl, Or.inl rfl, by intro c hc; cases hc⟩⟩, by intro s hs; cases hs⟩

theorem parse_good {src : Str} (hb : NoBlankLine src) (hc : Closed src) {s : Script} (h : parse src = some s) :
    ∀ x ∈ s.sections, SectionOk src x := by
  unfold parse at h
  by_cases h0 : byteLen src > 50 * 1024 * 1024
  · rw [if_pos h0] at h
    rw [← Option.some.inj h]
    intro x hx; cases hx
  · rw [if_neg h0] at h
    cases e : mainLoop (src.length + 1) (initial src) with
    | none => rw [e] at h; cases h
    | some p =>
      rw [e] at h
      rw [← Option.some.inj h]
      exact (mainLoop_good hb hc _ _ _ e (initial_good src)).2

end Verif.Parser
