import Verif.Model.Parser
import Verif.Lemmas.Ast
import Verif.Lemmas.LineCol
/-! Lines of sections; the loops of the section parsers. -/
namespace Verif.Parser
open Verif
open Verif.Ast

/-! ## Blanks and lines -/

theorem isBlank_isWs {c : Char} (h : isBlank c = true) : isWs c = true := by
  unfold isBlank at h
  simp only [Bool.or_eq_true, decide_eq_true_eq] at h
  rcases h with (rfl | rfl) | rfl <;> decide

theorem isBlank_size {c : Char} (h : isBlank c = true) : c.utf8Size = 1 := by
  unfold isBlank at h
  simp only [Bool.or_eq_true, decide_eq_true_eq] at h
  rcases h with (rfl | rfl) | rfl <;> decide

theorem isBlank_ne_nl {c : Char} (h : isBlank c = true) : c ≠ '\n' := by
  rintro rfl
  exact absurd h (by decide)

theorem takeWhile_all {p : Char → Bool} (s : Str) : ∀ c ∈ s.takeWhile p, p c = true := by
  induction s with
  | nil => simp
  | cons a s ih =>
    intro c hc
    rw [List.takeWhile_cons] at hc
    by_cases h : p a = true
    · rw [if_pos h] at hc
      cases hc with
      | head => exact h
      | tail _ hc => exact ih c hc
    · rw [if_neg h] at hc; cases hc

theorem dropWhile_head {p : Char → Bool} (s : Str) : ∀ c, (s.dropWhile p).head? = some c → p c = false := by
  intro c hc
  induction s with
  | nil => simp at hc
  | cons a s ih =>
    by_cases h : p a = true
    · rw [List.dropWhile_cons_of_pos h] at hc; exact ih hc
    · rw [List.dropWhile_cons_of_neg h] at hc
      simp at hc; subst hc; simpa using h

theorem dropWhile_append_all {p : Char → Bool} {w : Str} (s : Str) (h : ∀ c ∈ w, p c = true) :
    (w ++ s).dropWhile p = s.dropWhile p := by
  induction w with
  | nil => rfl
  | cons a w ih =>
    rw [List.cons_append, List.dropWhile_cons_of_pos (h a (by simp)), ih (fun c hc => h c (by simp [hc]))]

theorem trimStart_append_ws {w : Str} (s : Str) (h : ∀ c ∈ w, isWs c = true) : trimStart (w ++ s) = trimStart s :=
  dropWhile_append_all s h

theorem trimStart_dropBlank (s : Str) : trimStart (s.dropWhile isBlank) = trimStart s := by
  conv => rhs; rw [← List.takeWhile_append_dropWhile (p := isBlank) (l := s)]
  rw [trimStart_append_ws _ (fun c hc => isBlank_isWs (takeWhile_all s c hc))]

theorem trim_dropBlank (s : Str) : trim (s.dropWhile isBlank) = trim s := by
  unfold trim
  rw [trimStart_dropBlank]

theorem trim_eq_nil {s : Str} : trim s = [] ↔ ∀ c ∈ s, isWs c = true := by
  constructor
  · intro h c hc
    obtain ⟨-, a, b, e, ha, hb⟩ := InfoCmd.stripped_trim s
    rw [h, List.append_nil] at e
    rw [e] at hc
    rcases List.mem_append.1 hc with h1 | h1
    · exact (SrtDoc.white_iff c).2 (ha c h1)
    · exact (SrtDoc.white_iff c).2 (hb c h1)
  · intro h
    unfold trim trimStart
    have : s.dropWhile isWs = [] := by
      have := dropWhile_append_all (p := isWs) (w := s) [] h
      simpa using this
    rw [this]; rfl

theorem trimStart_eq_nil {s : Str} (h : ∀ c ∈ s, isWs c = true) : trimStart s = [] := by
  have := trimStart_append_ws [] h
  rw [List.append_nil] at this
  exact this

theorem trimStart_cons {c : Char} {s : Str} (h : isWs c = false) : trimStart (c :: s) = c :: s := by
  unfold trimStart
  rw [List.dropWhile_cons_of_neg (by simp [h])]

/-- A text is a line, perhaps followed by more. -/
theorem line_cases (s : Str) : (∃ l r, s = l ++ '\n' :: r ∧ '\n' ∉ l) ∨ '\n' ∉ s := by
  cases e : splitOnce '\n' s with
  | none => exact Or.inr (splitOnce_eq_none e)
  | some p => obtain ⟨l, r⟩ := p; exact Or.inl ⟨l, r, splitOnce_some e⟩

theorem takeWhile_nl {l : Str} (h : '\n' ∉ l) : l.takeWhile (· ≠ '\n') = l := by
  have := List.takeWhile_append_of_pos (p := fun c => decide (c ≠ '\n')) (l₁ := l) (l₂ := []) (by
    intro c hc
    simp; rintro rfl; exact h hc)
  simpa using this

theorem takeWhile_nl_append {l : Str} (r : Str) (h : '\n' ∉ l) : (l ++ '\n' :: r).takeWhile (· ≠ '\n') = l := by
  rw [List.takeWhile_append_of_pos, List.takeWhile_cons_of_neg (by simp), List.append_nil]
  intro c hc
  simp; rintro rfl; exact h hc

/-- Whether a line opens a section. -/
def opens (l : Str) : Bool := startsWith ['['] (trimStart l)

/-- Lines with their offsets and numbers. -/
def located (o ln : Nat) : List Str → List (Nat × Nat × Str)
  | [] => []
  | l :: ls => (o, ln, l) :: located (o + byteLen l + 1) (ln + 1) ls

/-- The lines up to the next that opens a section. -/
def body (s : Str) : List Str := (splitOn '\n' s).takeWhile (fun l => !opens l)

/-- The rest, from the mark that opens the section on. -/
def tail (s : Str) : Str := trimStart (joinSep '\n' ((splitOn '\n' s).dropWhile (fun l => !opens l)))

theorem body_line {l r : Str} (h : '\n' ∉ l) (ho : opens l = false) : body (l ++ '\n' :: r) = l :: body r := by
  unfold body
  rw [splitOn_append_sep _ h, List.takeWhile_cons_of_pos (by simp [ho])]

theorem tail_line {l r : Str} (h : '\n' ∉ l) (ho : opens l = false) : tail (l ++ '\n' :: r) = tail r := by
  unfold tail
  rw [splitOn_append_sep _ h, List.dropWhile_cons_of_pos (by simp [ho])]

theorem body_last {l : Str} (h : '\n' ∉ l) (ho : opens l = false) : body l = [l] := by
  unfold body
  rw [splitOn_of_not_mem h, List.takeWhile_cons_of_pos (by simp [ho])]; rfl

theorem tail_last {l : Str} (h : '\n' ∉ l) (ho : opens l = false) : tail l = [] := by
  unfold tail
  rw [splitOn_of_not_mem h, List.dropWhile_cons_of_pos (by simp [ho])]; rfl

theorem opens_nil : opens [] = false := by decide

theorem body_nil : body [] = [[]] := by decide
theorem tail_nil : tail [] = [] := by decide

theorem isWs_bracket : isWs '[' = false := by decide
theorem isWs_nl : isWs '\n' = true := by decide

theorem opens_iff {l : Str} : opens l = true ↔ ∃ w r, l = w ++ '[' :: r ∧ ∀ c ∈ w, isWs c = true := by
  unfold opens
  rw [startsWith_iff]
  constructor
  · rintro ⟨r, h⟩
    refine ⟨l.takeWhile isWs, r, ?_, takeWhile_all l⟩
    rw [show '[' :: r = trimStart l from h.symm]
    unfold trimStart
    rw [List.takeWhile_append_dropWhile]
  · rintro ⟨w, r, rfl, hw⟩
    refine ⟨r, ?_⟩
    rw [trimStart_append_ws _ hw, trimStart_cons isWs_bracket]
    rfl

theorem opens_append {l r : Str} (h : opens l = true) : opens (l ++ r) = true := by
  obtain ⟨w, x, rfl, hw⟩ := opens_iff.1 h
  exact opens_iff.2 ⟨w, x ++ r, by simp, hw⟩

/-- A text whose first line opens a section. -/
theorem body_open {l r : Str} (h : '\n' ∉ l) (ho : opens l = true) : body (l ++ '\n' :: r) = [] := by
  unfold body
  rw [splitOn_append_sep _ h, List.takeWhile_cons_of_neg (by simp [ho])]

theorem tail_open {l r : Str} (h : '\n' ∉ l) (ho : opens l = true) :
    tail (l ++ '\n' :: r) = trimStart (l ++ '\n' :: r) := by
  unfold tail
  rw [splitOn_append_sep _ h, List.dropWhile_cons_of_neg (by simp [ho]), joinSep_cons (splitOn_ne_nil _ _), joinSep_splitOn]

theorem body_open_last {l : Str} (h : '\n' ∉ l) (ho : opens l = true) : body l = [] := by
  unfold body
  rw [splitOn_of_not_mem h, List.takeWhile_cons_of_neg (by simp [ho])]

theorem tail_open_last {l : Str} (h : '\n' ∉ l) (ho : opens l = true) : tail l = trimStart l := by
  unfold tail
  rw [splitOn_of_not_mem h, List.dropWhile_cons_of_neg (by simp [ho])]; rfl

/-- Before a section opens there are only blank lines. -/
theorem at_section {s : Str} (h : opens s = true) : (∀ l ∈ body s, ∀ c ∈ l, isWs c = true) ∧ tail s = trimStart s := by
  obtain ⟨w, r, rfl, hw⟩ := opens_iff.1 h
  clear h
  induction hn : w.length using Nat.strongRecOn generalizing w with
  | ind n ih =>
    rcases line_cases w with ⟨l, w', rfl, hl⟩ | hl
    · have hlw : ∀ c ∈ l, isWs c = true := fun c hc => hw c (by simp [hc])
      have hno : opens l = false := by
        unfold opens; rw [trimStart_eq_nil hlw]; rfl
      have e : l ++ '\n' :: w' ++ '[' :: r = l ++ '\n' :: (w' ++ '[' :: r) := by simp
      obtain ⟨h1, h2⟩ := ih w'.length (by simp at hn; omega) w' (fun c hc => hw c (by simp [hc])) rfl
      rw [e, body_line hl hno, tail_line hl hno, h2]
      refine ⟨?_, ?_⟩
      · intro x hx
        cases hx with
        | head => exact hlw
        | tail _ hx => exact h1 x hx
      · have : l ++ '\n' :: (w' ++ '[' :: r) = (l ++ ['\n']) ++ (w' ++ '[' :: r) := by simp
        rw [this, trimStart_append_ws (w := l ++ ['\n'])]
        intro c hc
        rcases List.mem_append.1 hc with h1 | h1
        · exact hlw c h1
        · rw [List.mem_singleton.1 h1]; exact isWs_nl
    · rcases line_cases r with ⟨x, r', rfl, hx⟩ | hx
      · have e : w ++ '[' :: (x ++ '\n' :: r') = (w ++ '[' :: x) ++ '\n' :: r' := by simp
        have hn' : '\n' ∉ w ++ '[' :: x := by simp [hl, hx]
        have ho : opens (w ++ '[' :: x) = true := opens_iff.2 ⟨w, x, rfl, hw⟩
        rw [e, body_open hn' ho, tail_open hn' ho]
        exact ⟨by simp, rfl⟩
      · have hn' : '\n' ∉ w ++ '[' :: r := by simp [hl, hx]
        have ho : opens (w ++ '[' :: r) = true := opens_iff.2 ⟨w, r, rfl, hw⟩
        rw [body_open_last hn' ho, tail_open_last hn' ho]
        exact ⟨by simp, rfl⟩

/-- A text that does not open a section does not begin with a line that does. -/
theorem not_opens_line {l r : Str} (h : opens (l ++ r) = false) : opens l = false := by
  cases e : opens l with
  | false => rfl
  | true => rw [opens_append e] at h; cases h

/-! ## The tracker -/

/-- At the start of a line, or at the end. -/
def Tr.Start (t : Tr) : Prop := t.col = 1 ∨ t.rest = []

theorem Tr.start_skipLine (t : Tr) : t.skipLine.Start := by
  unfold Tr.skipLine Tr.Start
  split <;> simp

theorem blanks_len (s : Str) : byteLen (s.takeWhile isBlank) = (s.takeWhile isBlank).length :=
  Color.byteLen_of_ascii (fun c hc => isBlank_size (takeWhile_all s c hc))

theorem blanks_byteLen (s : Str) : (s.takeWhile isBlank).length + byteLen (s.dropWhile isBlank) = byteLen s := by
  conv => rhs; rw [← List.takeWhile_append_dropWhile (p := isBlank) (l := s)]
  rw [byteLen_append, blanks_len]

theorem dropBlank_append {l : Str} (r : Str) : (l ++ '\n' :: r).dropWhile isBlank = l.dropWhile isBlank ++ '\n' :: r := by
  induction l with
  | nil => rw [List.nil_append, List.dropWhile_cons_of_neg (by decide)]; rfl
  | cons c l ih =>
    by_cases h : isBlank c = true
    · rw [List.cons_append, List.dropWhile_cons_of_pos h, List.dropWhile_cons_of_pos h, ih]
    · rw [List.cons_append, List.dropWhile_cons_of_neg h, List.dropWhile_cons_of_neg h]; rfl

theorem takeBlank_append {l : Str} (r : Str) : (l ++ '\n' :: r).takeWhile isBlank = l.takeWhile isBlank := by
  induction l with
  | nil => rw [List.nil_append, List.takeWhile_cons_of_neg (by decide)]; rfl
  | cons c l ih =>
    by_cases h : isBlank c = true
    · rw [List.cons_append, List.takeWhile_cons_of_pos h, List.takeWhile_cons_of_pos h, ih]
    · rw [List.cons_append, List.takeWhile_cons_of_neg h, List.takeWhile_cons_of_neg h]

theorem not_mem_dropWhile {p : Char → Bool} {c : Char} {s : Str} (h : c ∉ s) : c ∉ s.dropWhile p :=
  fun hc => h ((List.dropWhile_suffix p).subset hc)

theorem skipWs_skipLine (t : Tr) : t.skipWs.skipLine = t.skipLine := by
  obtain ⟨rest, o, ln, col⟩ := t
  rcases line_cases rest with ⟨l, r, rfl, hl⟩ | hl
  · unfold Tr.skipLine Tr.skipWs
    simp only
    rw [dropBlank_append, takeBlank_append, splitOnce_append _ (not_mem_dropWhile hl), splitOnce_append _ hl]
    simp only
    have := blanks_byteLen l
    congr 1
    omega
  · unfold Tr.skipLine Tr.skipWs
    simp only
    rw [splitOnce_none (not_mem_dropWhile hl), splitOnce_none hl]
    simp only
    have := blanks_byteLen rest
    congr 1 <;> omega

theorem skipWs_newline {t : Tr} (h : startsWith ['\n'] t.skipWs.rest = true) : t.skipWs.newline = t.skipLine := by
  rw [← skipWs_skipLine]
  obtain ⟨r, hr⟩ := startsWith_iff.1 h
  unfold Tr.newline Tr.skipLine
  have : splitOnce '\n' t.skipWs.rest = some ([], r) := by
    rw [hr]; exact splitOnce_append (a := []) r List.not_mem_nil
  rw [this]
  rw [hr]
  rfl

theorem skipLine_lt {t : Tr} (h : t.rest ≠ []) : t.skipLine.rest.length < t.rest.length := by
  unfold Tr.skipLine
  cases e : splitOnce '\n' t.rest with
  | none =>
    show 0 < _
    exact List.length_pos_iff.2 h
  | some p =>
    obtain ⟨l, r⟩ := p
    show r.length < _
    rw [(splitOnce_some e).1]; simp; omega

theorem skipLine_suffix (t : Tr) : t.skipLine.rest <:+ t.rest := by
  unfold Tr.skipLine
  cases e : splitOnce '\n' t.rest with
  | none => exact List.nil_suffix
  | some p =>
    obtain ⟨l, r⟩ := p
    show r <:+ _
    rw [(splitOnce_some e).1]
    exact ⟨l ++ ['\n'], by simp⟩

theorem skipLine_bytes (t : Tr) : t.skipLine.off + byteLen t.skipLine.rest = t.off + byteLen t.rest := by
  unfold Tr.skipLine
  cases e : splitOnce '\n' t.rest with
  | none => simp
  | some p =>
    obtain ⟨l, r⟩ := p
    show t.off + byteLen l + 1 + byteLen r = _
    rw [(splitOnce_some e).1]
    have : Char.utf8Size '\n' = 1 := by decide
    simp [this]; omega

theorem skipWs_suffix (t : Tr) : t.skipWs.rest <:+ t.rest := List.dropWhile_suffix _

theorem skipWs_bytes (t : Tr) : t.skipWs.off + byteLen t.skipWs.rest = t.off + byteLen t.rest := by
  have := blanks_byteLen t.rest
  unfold Tr.skipWs
  simp only
  omega

theorem atSection_eq (t : Tr) : t.atSection = opens t.rest := rfl

theorem skipWs_opens (t : Tr) : opens t.skipWs.rest = opens t.rest := by
  unfold opens Tr.skipWs
  simp only
  rw [trimStart_dropBlank]

theorem current_eq_line {t : Tr} {l r : Str} (e : t.rest = l ++ '\n' :: r) (h : '\n' ∉ l) : t.current = l := by
  unfold Tr.current; rw [e, takeWhile_nl_append _ h]

theorem current_eq_last {t : Tr} (h : '\n' ∉ t.rest) : t.current = t.rest := by
  unfold Tr.current; rw [takeWhile_nl h]

theorem current_no_nl (t : Tr) : '\n' ∉ t.current := by
  intro h
  have := takeWhile_all (p := fun c => decide (c ≠ '\n')) t.rest '\n' h
  simp at this

theorem skipWs_current (t : Tr) : t.skipWs.current = t.current.dropWhile isBlank := by
  rcases line_cases t.rest with ⟨l, r, e, hl⟩ | hl
  · rw [current_eq_line e hl, current_eq_line (l := l.dropWhile isBlank) (r := r) _ (not_mem_dropWhile hl)]
    show t.rest.dropWhile isBlank = _
    rw [e, dropBlank_append]
  · rw [current_eq_last hl, current_eq_last]
    · rfl
    · exact not_mem_dropWhile hl

/-! ## Reading the lines of a section -/

/-- Comments and blank lines. -/
def ignored (l : Str) : Bool := isComment (l.dropWhile isBlank) || decide (trim l = [])

/-- The tracker at what a line says. -/
def lineTr (p : Nat × Nat × Str) : Tr := Tr.skipWs ⟨p.2.2, p.1, p.2.1, 1⟩

/-- One line. -/
def lineStep {σ : Type} (step : σ → Tr → Str → σ) (s : σ) (p : Nat × Nat × Str) : σ :=
  if ignored p.2.2 then s else step s (lineTr p) (trim p.2.2)

/-- All lines up to the next section. -/
def readLines {σ : Type} (step : σ → Tr → Str → σ) (s : σ) (t : Tr) : σ :=
  (located t.off t.line (body t.rest)).foldl (lineStep step) s

/-- Steps look at the current line and its place only. -/
def Local {σ : Type} (step : σ → Tr → Str → σ) : Prop :=
  ∀ s t t' x, t.current = t'.current → t.off = t'.off → t.line = t'.line → t.col = t'.col → step s t x = step s t' x

theorem ignored_white {l : Str} (h : ∀ c ∈ l, isWs c = true) : ignored l = true := by
  unfold ignored
  rw [trim_eq_nil.2 h]; simp

theorem foldl_white {σ : Type} (step : σ → Tr → Str → σ) (s : σ) : ∀ (L : List Str) (o ln : Nat),
    (∀ l ∈ L, ∀ c ∈ l, isWs c = true) → (located o ln L).foldl (lineStep step) s = s
  | [], _, _, _ => rfl
  | l :: L, o, ln, h => by
    rw [located, List.foldl_cons]
    have : lineStep step s (o, ln, l) = s := by
      unfold lineStep; rw [if_pos (ignored_white (h l (by simp)))]
    rw [this]
    exact foldl_white step s L _ _ (fun x hx => h x (by simp [hx]))

theorem readLines_nil {σ : Type} (step : σ → Tr → Str → σ) (s : σ) {t : Tr} (h : t.rest = []) : readLines step s t = s := by
  unfold readLines
  rw [h, body_nil]
  exact foldl_white step s _ _ _ (by simp)

theorem readLines_section {σ : Type} (step : σ → Tr → Str → σ) (s : σ) {t : Tr} (h : opens t.rest = true) :
    readLines step s t = s := foldl_white step s _ _ _ (at_section h).1

theorem lineTr_current {l : Str} {o ln : Nat} (h : '\n' ∉ l) : (lineTr (o, ln, l)).current = l.dropWhile isBlank := by
  unfold lineTr
  rw [skipWs_current, current_eq_last h]

/-- One line at a time. -/
theorem readLines_step {σ : Type} {step : σ → Tr → Str → σ} (hloc : Local step) (s : σ) {t : Tr} (ht : t.Start)
    (hne : t.rest ≠ []) (ho : opens t.current = false) :
    readLines step s t =
      readLines step (if ignored t.current then s else step s t.skipWs (trim t.current)) t.skipLine := by
  have hcol : t.col = 1 := by
    rcases ht with h | h
    · exact h
    · exact absurd h hne
  have hstep : ∀ l, l = t.current → '\n' ∉ l → lineStep step s (t.off, t.line, l) =
      (if ignored t.current then s else step s t.skipWs (trim t.current)) := by
    rintro l rfl hl
    unfold lineStep
    simp only
    by_cases hi : ignored t.current = true
    · rw [if_pos hi, if_pos hi]
    · rw [if_neg hi, if_neg hi]
      apply hloc
      · rw [lineTr_current hl, skipWs_current]
      all_goals
        unfold lineTr Tr.skipWs
        simp only [hcol]
      all_goals
        rcases line_cases t.rest with ⟨l, r, e, hl⟩ | hl
        · rw [current_eq_line e hl, e, takeBlank_append]
        · rw [current_eq_last hl]
  rcases line_cases t.rest with ⟨l, r, e, hl⟩ | hl
  · have hc := current_eq_line e hl
    rw [← hstep l hc.symm hl]
    have e2 : t.skipLine = ⟨r, t.off + byteLen l + 1, t.line + 1, 1⟩ := by
      unfold Tr.skipLine
      rw [e, splitOnce_append _ hl]
    rw [e2]
    unfold readLines
    rw [e, body_line hl (hc ▸ ho), located, List.foldl_cons]
  · have hc := current_eq_last hl
    rw [← hstep t.rest hc.symm hl]
    have e2 : t.skipLine.rest = [] := by
      unfold Tr.skipLine
      rw [splitOnce_none hl]
    rw [readLines_nil step _ e2]
    unfold readLines
    rw [body_last hl (hc ▸ ho)]
    rfl

theorem tail_step {t : Tr} (ho : opens t.current = false) : tail t.skipLine.rest = tail t.rest := by
  rcases line_cases t.rest with ⟨l, r, e, hl⟩ | hl
  · have hc := current_eq_line e hl
    have e2 : t.skipLine.rest = r := by
      unfold Tr.skipLine
      rw [e, splitOnce_append _ hl]
    rw [e2, e, tail_line hl (hc ▸ ho)]
  · have hc := current_eq_last hl
    have e2 : t.skipLine.rest = [] := by
      unfold Tr.skipLine
      rw [splitOnce_none hl]
    rw [e2, tail_nil, tail_last hl (hc ▸ ho)]

theorem current_opens {t : Tr} (h : opens t.rest = false) : opens t.current = false := by
  rcases line_cases t.rest with ⟨l, r, e, hl⟩ | hl
  · rw [current_eq_line e hl]; rw [e] at h; exact not_opens_line h
  · rw [current_eq_last hl]; exact h

/-- What comments of a section are. -/
structure Comments (com : Str → Bool) : Prop where
  cong : ∀ l r, '\n' ∉ l → com (l ++ '\n' :: r) = com l
  open_ : ∀ l, com l = true → opens l = false

theorem comments_text : Comments isComment := by
  constructor
  · intro l r hl
    cases l with
    | nil => rfl
    | cons c l => simp only [isComment, startsWith, stripPrefix, List.cons_append]; (repeat' split) <;> rfl
  · intro l h
    unfold isComment at h
    rw [Bool.or_eq_true] at h
    rcases h with h | h <;>
    · obtain ⟨r, rfl⟩ := startsWith_iff.1 h
      unfold opens
      rw [List.singleton_append, trimStart_cons (by decide)]
      rfl

theorem com_current {com : Str → Bool} (hc : Comments com) (t : Tr) : com t.rest = com t.current := by
  rcases line_cases t.rest with ⟨l, r, e, hl⟩ | hl
  · rw [current_eq_line e hl, e, hc.cong l r hl]
  · rw [current_eq_last hl]

theorem opens_dropBlank (l : Str) : opens (l.dropWhile isBlank) = opens l := by
  unfold opens; rw [trimStart_dropBlank]

/-- Skipping blanks and comments goes to the first line that says something (or to the end), line by line. -/
theorem skipBlank_spec {com : Str → Bool} (hc : Comments com) : ∀ (n : Nat) (t : Tr), t.Start → t.rest.length < n →
    ∃ (k : Nat) (b : Tr), skipBlank com n t = some b.skipWs ∧ b.Start ∧ b = Nat.repeat Tr.skipLine k t ∧
      (∀ j, j < k → (Nat.repeat Tr.skipLine j t).rest ≠ [] ∧
        (com ((Nat.repeat Tr.skipLine j t).current.dropWhile isBlank) = true ∨
          (Nat.repeat Tr.skipLine j t).current.dropWhile isBlank = [])) ∧
      (b.skipWs.rest = [] ∨ (com (b.current.dropWhile isBlank) = false ∧ b.current.dropWhile isBlank ≠ []))
  | 0, _, _, h => by omega
  | n + 1, t, ht, h => by
    rw [skipBlank]
    by_cases h0 : t.skipWs.rest = []
    · rw [if_pos h0]
      exact ⟨0, t, rfl, ht, rfl, by intro j hj; omega, Or.inl h0⟩
    rw [if_neg h0]
    have hne : t.rest ≠ [] := by
      intro e; apply h0
      show t.rest.dropWhile isBlank = []
      rw [e]; rfl
    have hlt := skipLine_lt hne
    have next : (com (t.current.dropWhile isBlank) = true ∨ t.current.dropWhile isBlank = []) →
        ∃ (k : Nat) (b : Tr), skipBlank com n t.skipLine = some b.skipWs ∧ b.Start ∧ b = Nat.repeat Tr.skipLine k t ∧
        (∀ j, j < k → (Nat.repeat Tr.skipLine j t).rest ≠ [] ∧
          (com ((Nat.repeat Tr.skipLine j t).current.dropWhile isBlank) = true ∨
            (Nat.repeat Tr.skipLine j t).current.dropWhile isBlank = [])) ∧
        (b.skipWs.rest = [] ∨ (com (b.current.dropWhile isBlank) = false ∧ b.current.dropWhile isBlank ≠ [])) := by
      intro hcur
      obtain ⟨k, b, e1, e2, e3, e4, e5⟩ := skipBlank_spec hc n t.skipLine t.start_skipLine (by omega)
      have shift : ∀ j, Nat.repeat Tr.skipLine j t.skipLine = Nat.repeat Tr.skipLine (j + 1) t := by
        intro j
        induction j with
        | zero => rfl
        | succ j ih => rw [Nat.repeat, ih]; rfl
      refine ⟨k + 1, b, e1, e2, by rw [e3, shift], ?_, e5⟩
      intro j hj
      cases j with
      | zero => exact ⟨hne, hcur⟩
      | succ j => rw [← shift]; exact e4 j (by omega)
    by_cases h1 : com t.skipWs.rest = true
    · rw [if_pos h1, skipWs_skipLine]
      rw [com_current hc, skipWs_current] at h1
      exact next (Or.inl h1)
    rw [if_neg h1]
    by_cases h2 : startsWith ['\n'] t.skipWs.rest = true
    · rw [if_pos h2, skipWs_newline h2]
      apply next
      right
      rw [← skipWs_current]
      obtain ⟨r, hr⟩ := startsWith_iff.1 h2
      exact current_eq_line (l := []) hr (by simp)
    · rw [if_neg h2]
      refine ⟨0, t, rfl, ht, rfl, by intro j hj; omega, Or.inr ⟨?_, ?_⟩⟩
      · rw [com_current hc, skipWs_current] at h1
        simpa using h1
      · rw [← skipWs_current]
        intro e
        rcases line_cases t.skipWs.rest with ⟨l, r, e1, hl⟩ | hl
        · rw [current_eq_line e1 hl] at e
          subst e
          exact h2 (startsWith_iff.2 ⟨r, e1⟩)
        · rw [current_eq_last hl] at e; exact h0 e

theorem repeat_start {t : Tr} (ht : t.Start) : ∀ k, (Nat.repeat Tr.skipLine k t).Start
  | 0 => ht
  | k + 1 => by rw [Nat.repeat]; exact Tr.start_skipLine _

theorem repeat_suffix (t : Tr) : ∀ k, (Nat.repeat Tr.skipLine k t).rest <:+ t.rest
  | 0 => List.suffix_refl _
  | k + 1 => by rw [Nat.repeat]; exact (skipLine_suffix _).trans (repeat_suffix t k)

theorem repeat_bytes (t : Tr) : ∀ k, (Nat.repeat Tr.skipLine k t).off + byteLen (Nat.repeat Tr.skipLine k t).rest =
    t.off + byteLen t.rest
  | 0 => rfl
  | k + 1 => by rw [Nat.repeat, skipLine_bytes, repeat_bytes t k]

theorem blank_trim {l : Str} (h : l.dropWhile isBlank = []) : trim l = [] := by
  rw [← trim_dropBlank, h]; rfl

theorem passed_opens {com : Str → Bool} (hc : Comments com) {l : Str}
    (h : com (l.dropWhile isBlank) = true ∨ l.dropWhile isBlank = []) : opens l = false := by
  rw [← opens_dropBlank]
  rcases h with h | h
  · exact hc.open_ _ h
  · rw [h]; rfl

theorem readLines_repeat {σ : Type} {step : σ → Tr → Str → σ} (hloc : Local step) (s : σ) {t : Tr} (ht : t.Start) :
    ∀ k, (∀ j, j < k → (Nat.repeat Tr.skipLine j t).rest ≠ [] ∧
        (isComment ((Nat.repeat Tr.skipLine j t).current.dropWhile isBlank) = true ∨
          (Nat.repeat Tr.skipLine j t).current.dropWhile isBlank = [])) →
      readLines step s t = readLines step s (Nat.repeat Tr.skipLine k t) ∧ tail t.rest = tail (Nat.repeat Tr.skipLine k t).rest
  | 0, _ => ⟨rfl, rfl⟩
  | k + 1, h => by
    obtain ⟨h1, h2⟩ := readLines_repeat hloc s ht k (fun j hj => h j (by omega))
    obtain ⟨hne, hcur⟩ := h k (by omega)
    have ho := passed_opens comments_text hcur
    rw [h1, h2, Nat.repeat]
    constructor
    · rw [readLines_step hloc s (repeat_start ht k) hne ho, if_pos]
      unfold ignored
      rcases hcur with h | h
      · rw [h]; rfl
      · rw [blank_trim h]; simp
    · rw [tail_step ho]

/-- **The loop of a text section** reads the lines up to the next section, one after the other. -/
theorem sectionLoop_spec {σ : Type} {step : σ → Tr → Str → σ} (hloc : Local step) : ∀ (n : Nat) (s : σ) (t : Tr), t.Start →
    t.rest.length < n → ∃ t', sectionLoop step n s t = some (readLines step s t, t') ∧
      trimStart t'.rest = tail t.rest ∧ t'.rest <:+ t.rest ∧ t'.off + byteLen t'.rest = t.off + byteLen t.rest
  | 0, _, _, _, h => by omega
  | n + 1, s, t, ht, h => by
    rw [sectionLoop]
    by_cases h0 : t.rest = [] ∨ t.atSection = true
    · rw [if_pos h0]
      rcases h0 with h0 | h0
      · exact ⟨t, by rw [readLines_nil step s h0], by rw [h0, tail_nil]; rfl, List.suffix_refl _, rfl⟩
      · rw [atSection_eq] at h0
        exact ⟨t, by rw [readLines_section step s h0], (at_section h0).2.symm, List.suffix_refl _, rfl⟩
    rw [if_neg h0]
    obtain ⟨k, b, e1, hb, e3, e4, e5⟩ := skipBlank_spec comments_text (t.rest.length + 1) t ht (by omega)
    obtain ⟨r1, r2⟩ := readLines_repeat hloc s ht k e4
    rw [← e3] at r1 r2
    have hsuf : b.rest <:+ t.rest := by rw [e3]; exact repeat_suffix t k
    have hbytes : b.off + byteLen b.rest = t.off + byteLen t.rest := by rw [e3]; exact repeat_bytes t k
    rw [e1]
    simp only
    rw [r1, r2]
    by_cases h1 : b.skipWs.rest = [] ∨ b.skipWs.atSection = true
    · rw [if_pos h1]
      refine ⟨b.skipWs, ?_, ?_, (skipWs_suffix b).trans hsuf, by rw [skipWs_bytes, hbytes]⟩
      · rcases h1 with h1 | h1
        · by_cases h2 : b.rest = []
          · rw [readLines_nil step s h2]
          · have hcur : b.current.dropWhile isBlank = [] := by rw [← skipWs_current]; unfold Tr.current; rw [h1]; rfl
            rw [readLines_step hloc s hb h2 (passed_opens comments_text (Or.inr hcur)), if_pos]
            · rw [readLines_nil]
              rw [← skipWs_skipLine]
              unfold Tr.skipLine
              rw [h1]
              rfl
            · unfold ignored; rw [blank_trim hcur]; simp
        · rw [atSection_eq, skipWs_opens] at h1
          rw [readLines_section step s h1]
      · rcases h1 with h1 | h1
        · rw [h1]
          have hcur : b.current.dropWhile isBlank = [] := by rw [← skipWs_current]; unfold Tr.current; rw [h1]; rfl
          have ho := passed_opens comments_text (Or.inr hcur)
          rw [← tail_step ho, ← skipWs_skipLine]
          unfold Tr.skipLine
          rw [h1]
          exact tail_nil.symm
        · rw [atSection_eq, skipWs_opens] at h1
          rw [(at_section h1).2]
          exact trimStart_dropBlank b.rest
    · rw [if_neg h1]
      have h1a : b.skipWs.rest ≠ [] := fun e => h1 (Or.inl e)
      have hbo : opens b.rest = false := by
        cases e : opens b.rest with
        | false => rfl
        | true => exact absurd (Or.inr (by rw [atSection_eq, skipWs_opens, e])) h1
      have hco := current_opens hbo
      have hne : b.rest ≠ [] := by
        intro e; apply h1a
        show b.rest.dropWhile isBlank = []
        rw [e]; rfl
      have hcm : isComment (b.current.dropWhile isBlank) = false := by
        rcases e5 with e | e
        · exact absurd e h1a
        · exact e.1
      rw [readLines_step hloc s hb hne hco, ← tail_step hco]
      have hlt := skipLine_lt hne
      have hle := hsuf.length_le
      have ecur : trim b.skipWs.current = trim b.current := by rw [skipWs_current, trim_dropBlank]
      rw [ecur, skipWs_skipLine]
      have fin : ∀ s', ∃ t', sectionLoop step n s' b.skipLine = some (readLines step s' b.skipLine, t') ∧
          trimStart t'.rest = tail b.skipLine.rest ∧ t'.rest <:+ t.rest ∧ t'.off + byteLen t'.rest = t.off + byteLen t.rest := by
        intro s'
        obtain ⟨t', f1, f2, f3, f4⟩ := sectionLoop_spec hloc n s' b.skipLine b.start_skipLine (by omega)
        exact ⟨t', f1, f2, (f3.trans (skipLine_suffix b)).trans hsuf, by rw [f4, skipLine_bytes, hbytes]⟩
      by_cases h2 : trim b.current = []
      · rw [if_pos h2, if_pos (by unfold ignored; rw [h2]; simp)]
        exact fin s
      · rw [if_neg h2, if_neg (by unfold ignored; rw [hcm]; simp [h2])]
        exact fin _

theorem local_info : Local infoStep := by
  intro s t t' x h1 h2 h3 h4
  unfold infoStep
  rw [h3]

theorem local_style : Local styleStep := by
  intro s t t' x h1 h2 h3 h4
  unfold styleStep styleInternal Tr.spanFor
  rw [h1, h2, h3, h4]

theorem local_event : Local eventStep := by
  intro s t t' x h1 h2 h3 h4
  unfold eventStep Tr.spanFor
  rw [h1, h2, h3, h4]

end Verif.Parser
