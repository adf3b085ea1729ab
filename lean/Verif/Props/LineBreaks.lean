import Verif.Spec.LineBreaks
import Verif.Lemmas.StrX
/-! # Line breaks of a text -/
namespace Verif.Props.LineBreaks
open Verif
open Verif.LineBreaks
open Verif.Spec.LineBreaks

/-! ## Scanning -/

/-- What one piece adds. -/
def add (b : Broken) : Piece → Broken
  | .char c => ⟨b.text ++ [c], b.breaks, b.spaces⟩
  | .brk k => ⟨b.text ++ ['\n'], b.breaks ++ [(byteLen b.text, k)], b.spaces⟩
  | .space => ⟨b.text ++ ['\u00A0'], b.breaks, b.spaces ++ [byteLen b.text]⟩
  | .other c => ⟨b.text ++ ['\\', c], b.breaks, b.spaces⟩

theorem scan_char (d : Bool) (b : Broken) {c : Char} (hc : c ≠ '\\') (s : Str) :
    scan d b (c :: s) = scan d ⟨b.text ++ [c], b.breaks, b.spaces⟩ s := by
  cases s with
  | nil => rfl
  | cons e s => rw [scan, if_neg hc]

theorem scan_pair (d : Bool) (b : Broken) (c : Char) (s : Str) : scan d b ('\\' :: c :: s) = scan d (special d c b) s := by
  rw [scan, if_pos rfl]

theorem special_other (d : Bool) (b : Broken) {c : Char} (h : c ≠ 'N' ∧ c ≠ 'n' ∧ c ≠ 'h') :
    special d c b = ⟨b.text ++ ['\\', c], b.breaks, b.spaces⟩ := by
  unfold special
  rw [if_neg h.1, if_neg h.2.1, if_neg h.2.2]

theorem scan_piece (b : Broken) {p : Piece} (hp : p.Ok) (s : Str) : scan false b (p.source ++ s) = scan false (add b p) s := by
  cases p with
  | char c => exact scan_char _ _ hp s
  | brk k => cases k <;> exact scan_pair _ _ _ _
  | space => exact scan_pair _ _ _ _
  | other c =>
    show scan false b ('\\' :: c :: s) = _
    rw [scan_pair, special_other _ _ hp]
    rfl

theorem scan_pieces : ∀ {ps : List Piece} (b : Broken), (∀ p ∈ ps, p.Ok) → ∀ s,
    scan false b (source ps ++ s) = scan false (ps.foldl add b) s
  | [], _, _, _ => rfl
  | p :: ps, b, h, s => by
    show scan false b ((p.source ++ source ps) ++ s) = _
    rw [List.append_assoc, scan_piece b (h p (by simp))]
    exact scan_pieces (add b p) (fun q hq => h q (by simp [hq])) s

theorem scan_drawn : ∀ {ps : List Piece} (b : Broken), (∀ p ∈ ps, p.Ok) → ∀ s,
    scan true b (source ps ++ s) = scan true ⟨b.text ++ drawn ps, b.breaks, b.spaces⟩ s
  | [], b, _, s => by simp [source, drawn]
  | p :: ps, b, h, s => by
    have ih := scan_drawn (ps := ps) ⟨b.text ++ p.drawn, b.breaks, b.spaces⟩ (fun q hq => h q (by simp [hq])) s
    have hp : scan true b (p.source ++ (source ps ++ s)) = scan true ⟨b.text ++ p.drawn, b.breaks, b.spaces⟩ (source ps ++ s) := by
      cases p with
      | char c => exact scan_char _ _ (h (.char c) (by simp)) _
      | brk k => cases k <;> simp [Piece.source, Piece.drawn, scan_pair, special]
      | space => simp [Piece.source, Piece.drawn, scan_pair, special]
      | other c =>
        show scan true b ('\\' :: c :: _) = _
        rw [scan_pair, special_other _ _ (h (.other c) (by simp))]
        rfl
    show scan true b ((p.source ++ source ps) ++ s) = _
    rw [List.append_assoc, hp, ih]
    simp [drawn]

theorem bytes_eq (s : Str) : bytes s = byteLen s := rfl

theorem shown_append (a b : List Piece) : shown (a ++ b) = shown a ++ shown b := by simp [shown]

/-- What the pieces of a text leave behind. -/
theorem fold_spec : ∀ (ps : List Piece) (b : Broken) (done : List Piece), b.text = shown done →
    (∀ pos k, (pos, k) ∈ b.breaks ↔ StandsAt done (.brk k) pos) → (∀ pos, pos ∈ b.spaces ↔ StandsAt done .space pos) →
    (b.breaks.map (·.1)).Pairwise (· < ·) → (∀ x ∈ b.breaks, x.1 < byteLen b.text) →
    (ps.foldl add b).text = shown (done ++ ps) ∧
    (∀ pos k, (pos, k) ∈ (ps.foldl add b).breaks ↔ StandsAt (done ++ ps) (.brk k) pos) ∧
    (∀ pos, pos ∈ (ps.foldl add b).spaces ↔ StandsAt (done ++ ps) .space pos) ∧
    ((ps.foldl add b).breaks.map (·.1)).Pairwise (· < ·)
  | [], b, done, h1, h2, h3, h4, _ => by simpa using ⟨h1, h2, h3, h4⟩
  | p :: ps, b, done, h1, h2, h3, h4, h5 => by
    have stand : ∀ (q : Piece) (pos : Nat), StandsAt (done ++ [p]) q pos ↔ StandsAt done q pos ∨ (q = p ∧ pos = bytes (shown done)) := by
      intro q pos
      constructor
      · rintro ⟨x, y, e, rfl⟩
        rcases List.eq_nil_or_concat y with rfl | ⟨y', z, rfl⟩
        · have := List.append_inj' (t₁ := [p]) (t₂ := [q]) e rfl
          obtain ⟨e1, e2⟩ := this
          injection e2 with e2 _
          exact .inr ⟨e2.symm, by rw [e1]⟩
        · rw [List.concat_eq_append, show x ++ q :: (y' ++ [z]) = (x ++ q :: y') ++ [z] by simp] at e
          have := List.append_inj' e rfl
          exact .inl ⟨x, y', this.1, rfl⟩
      · rintro (⟨x, y, rfl, rfl⟩ | ⟨rfl, rfl⟩)
        · exact ⟨x, y ++ [p], by simp, rfl⟩
        · exact ⟨done, [], by simp, rfl⟩
    have ht : (add b p).text = shown (done ++ [p]) := by
      rw [shown_append, ← h1]
      cases p <;> simp [add, shown, Piece.shown]
    have hb : ∀ pos k, (pos, k) ∈ (add b p).breaks ↔ StandsAt (done ++ [p]) (.brk k) pos := by
      intro pos k
      rw [stand, ← h2, bytes_eq, ← h1]
      cases p with
      | char c => simp [add]
      | space => simp [add]
      | other c => simp [add]
      | brk k' => simp [add]; constructor <;> (rintro (h | h) <;> simp_all)
    have hs : ∀ pos, pos ∈ (add b p).spaces ↔ StandsAt (done ++ [p]) .space pos := by
      intro pos
      rw [stand, ← h3, bytes_eq, ← h1]
      cases p <;> simp [add]
    have hlt : ∀ x ∈ (add b p).breaks, x.1 < byteLen (add b p).text := by
      intro x hx
      have key : byteLen b.text ≤ byteLen (add b p).text := by
        rw [ht, shown_append, ← h1, byteLen_append]; omega
      cases p with
      | char c => exact Nat.lt_of_lt_of_le (h5 x hx) key
      | space => exact Nat.lt_of_lt_of_le (h5 x hx) key
      | other c => exact Nat.lt_of_lt_of_le (h5 x hx) key
      | brk k' =>
        simp only [add, List.mem_append, List.mem_singleton] at hx
        rcases hx with hx | rfl
        · exact Nat.lt_of_lt_of_le (h5 x hx) key
        · simp only [add, byteLen_append]
          exact Nat.lt_add_of_pos_right (by decide)
    have hp : ((add b p).breaks.map (·.1)).Pairwise (· < ·) := by
      cases p with
      | char c => exact h4
      | space => exact h4
      | other c => exact h4
      | brk k' =>
        simp only [add, List.map_append, List.map_cons, List.map_nil]
        rw [List.pairwise_append]
        refine ⟨h4, by simp, ?_⟩
        intro x hx y hy
        simp only [List.mem_singleton] at hy
        subst hy
        obtain ⟨z, hz, rfl⟩ := List.mem_map.1 hx
        exact h5 z hz
    have := fold_spec ps (add b p) (done ++ [p]) ht hb hs hp hlt
    rw [List.append_assoc] at this
    exact this

theorem find_of_pairwise {l : List (Nat × Kind)} (h : (l.map (·.1)).Pairwise (· < ·)) (pos : Nat) (k : Kind) :
    (l.find? (fun x => x.1 == pos)).map (·.2) = some k ↔ (pos, k) ∈ l := by
  induction l with
  | nil => simp
  | cons x l ih =>
    obtain ⟨q, j⟩ := x
    simp only [List.map_cons, List.pairwise_cons] at h
    by_cases e : q = pos
    · subst e
      rw [List.find?_cons_of_pos (by simp)]
      simp only [Option.map_some, Option.some.injEq, List.mem_cons, Prod.mk.injEq, true_and]
      constructor
      · intro e; exact .inl e.symm
      · rintro (e | e)
        · exact e.symm
        · have := h.1 q (List.mem_map.2 ⟨_, e, rfl⟩)
          omega
    · rw [List.find?_cons_of_neg (by simp [e]), ih h.2]
      simp only [List.mem_cons, Prod.mk.injEq]
      constructor
      · intro m; exact .inr m
      · rintro (⟨e2, _⟩ | m)
        · exact absurd e2.symm e
        · exact m

/-- Every text consists of pieces, except perhaps for a backslash at its end. -/
theorem C123_pieces (text : List Char) : ∃ ps : List Piece, (∀ p ∈ ps, p.Ok) ∧ (text = source ps ∨ text = source ps ++ ['\\']) := by
  have key : ∀ n (text : List Char), text.length ≤ n →
      ∃ ps : List Piece, (∀ p ∈ ps, p.Ok) ∧ (text = source ps ∨ text = source ps ++ ['\\']) := by
    intro n
    induction n with
    | zero =>
      intro text h
      have : text = [] := List.length_eq_zero_iff.1 (by omega)
      exact ⟨[], by simp, .inl this⟩
    | succ n ih =>
      intro text h
      have more : ∀ (p : Piece) (s : List Char), p.Ok → s.length ≤ n → text = p.source ++ s →
          ∃ ps : List Piece, (∀ p ∈ ps, p.Ok) ∧ (text = source ps ∨ text = source ps ++ ['\\']) := by
        intro p s hp hs e
        obtain ⟨ps, h1, h2⟩ := ih s hs
        refine ⟨p :: ps, by simp [hp]; exact h1, ?_⟩
        rcases h2 with h2 | h2
        · left; rw [e, h2]; rfl
        · right; rw [e, h2]; simp [source]
      cases text with
      | nil => exact ⟨[], by simp, .inl rfl⟩
      | cons c s =>
        simp only [List.length_cons] at h
        by_cases hc : c = '\\'
        · subst hc
          cases s with
          | nil => exact ⟨[], by simp, .inr rfl⟩
          | cons d s =>
            simp only [List.length_cons] at h
            by_cases h1 : d = 'N'
            · exact more (.brk .hard) s trivial (by omega) (by rw [h1]; rfl)
            by_cases h2 : d = 'n'
            · exact more (.brk .soft) s trivial (by omega) (by rw [h2]; rfl)
            by_cases h3 : d = 'h'
            · exact more .space s trivial (by omega) (by rw [h3]; rfl)
            · exact more (.other d) s ⟨h1, h2, h3⟩ (by omega) rfl
        · exact more (.char c) s hc (by omega) rfl
  exact key _ text (Nat.le_refl _)

/-- The text that is shown, the breaks and the hard spaces of a text: each break and each hard space is found at the byte where its
character stands in the shown text, and nothing else is. -/
theorem C123_breaks {ps : List Piece} (h : ∀ p ∈ ps, p.Ok) {tail : List Char} (ht : tail = [] ∨ tail = ['\\']) :
    (fromText (source ps ++ tail) false).text = shown ps ++ tail ∧
    (∀ pos k, breakAt (fromText (source ps ++ tail) false) pos = some k ↔ StandsAt ps (.brk k) pos) ∧
    (∀ pos, spaceAt (fromText (source ps ++ tail) false) pos = true ↔ StandsAt ps .space pos) ∧
    ((fromText (source ps ++ tail) false).breaks.map (·.1)).Pairwise (· < ·) := by
  have e : fromText (source ps ++ tail) false =
      ⟨(ps.foldl add ⟨[], [], []⟩).text ++ tail, (ps.foldl add ⟨[], [], []⟩).breaks, (ps.foldl add ⟨[], [], []⟩).spaces⟩ := by
    unfold fromText
    rw [scan_pieces _ h]
    rcases ht with rfl | rfl
    · simp [scan]
    · rfl
  have no : ∀ (q : Piece) (pos : Nat), ¬ StandsAt [] q pos := by
    rintro q pos ⟨a, b, e, _⟩
    simp at e
  have f := fold_spec ps ⟨[], [], []⟩ [] rfl (fun pos k => by simp [no]) (fun pos => by simp [no]) (by simp) (by simp)
  simp only [List.nil_append] at f
  rw [e]
  refine ⟨by rw [f.1], ?_, ?_, f.2.2.2⟩
  · intro pos k
    unfold breakAt
    rw [find_of_pairwise f.2.2.2, f.2.1]
  · intro pos
    unfold spaceAt
    rw [List.contains_iff_mem, f.2.2.1]

example : fromText "Ä\\NB\\hC\\n".toList false = ⟨"Ä\nB\u00A0C\n".toList, [(2, .hard), (7, .soft)], [4]⟩ := by decide +kernel

/-- In a drawing, breaks and hard spaces are dropped, and none is recorded. -/
theorem C123_drawing {ps : List Piece} (h : ∀ p ∈ ps, p.Ok) {tail : List Char} (ht : tail = [] ∨ tail = ['\\']) :
    fromText (source ps ++ tail) true = ⟨drawn ps ++ tail, [], []⟩ := by
  unfold fromText
  rw [scan_drawn _ h]
  rcases ht with rfl | rfl
  · simp [scan]
  · rfl

example : fromText "m 0 0\\N l 1 1".toList true = ⟨"m 0 0 l 1 1".toList, [], []⟩ := by decide +kernel

/-! ## Agreement with the analysis -/

theorem escape_shown {p : Piece} (hp : p.Ok) (hb : '{' ∉ p.source) (k pos : Nat) (s : Str) {a : Override.Analysis}
    (h : ∀ j pos', s.length ≤ j → Override.textLoop j pos' false s = .ok a ∨ ∃ b, Override.textLoop j pos' false s = .ok b ∧ b.plain = a.plain)
    (hk : (p.source ++ s).length ≤ k) :
    ∃ b, Override.textLoop k pos false (p.source ++ s) = .ok b ∧ b.plain = p.shown ++ a.plain := by
  have rest : ∀ j pos', s.length ≤ j → ∃ b, Override.textLoop j pos' false s = .ok b ∧ b.plain = a.plain := by
    intro j pos' hj
    rcases h j pos' hj with h | h
    · exact ⟨a, h, rfl⟩
    · exact h
  have pair : ∀ c, '{' ≠ c → p.source = ['\\', c] → p.shown = Override.escapeText c →
      ∃ b, Override.textLoop k pos false (p.source ++ s) = .ok b ∧ b.plain = p.shown ++ a.plain := by
    intro c _ e1 e2
    rw [e1] at hk ⊢
    simp only [List.cons_append, List.nil_append, List.length_cons] at hk ⊢
    obtain ⟨j, rfl⟩ : ∃ j, k = j + 1 := ⟨k - 1, by omega⟩
    obtain ⟨b, hb, hp⟩ := rest j (pos + 1 + c.utf8Size) (by omega)
    unfold Override.textLoop
    rw [if_neg (by decide), if_pos rfl]
    dsimp only
    rw [hb]
    exact ⟨_, rfl, by rw [e2, ← hp]; rfl⟩
  cases p with
  | char c =>
    have hc : c ≠ '{' := fun e => hb (by simp [Piece.source, e])
    simp only [Piece.source, List.cons_append, List.nil_append, List.length_cons] at hk ⊢
    obtain ⟨j, rfl⟩ : ∃ j, k = j + 1 := ⟨k - 1, by omega⟩
    obtain ⟨b, hb, hpl⟩ := rest j (pos + c.utf8Size) (by omega)
    unfold Override.textLoop
    rw [if_neg hc, if_neg hp, hb]
    exact ⟨_, rfl, by rw [← hpl]; rfl⟩
  | brk kd => cases kd <;> exact pair _ (by decide) rfl rfl
  | space => exact pair _ (by decide) rfl rfl
  | other c =>
    refine pair c (fun e => hb (by simp [Piece.source, ← e])) rfl ?_
    unfold Override.escapeText
    rw [if_neg (by simp [hp.1, hp.2.1]), if_neg hp.2.2]
    rfl

theorem analyze_pieces : ∀ {ps : List Piece}, (∀ p ∈ ps, p.Ok) → '{' ∉ source ps → ∀ k pos, (source ps).length ≤ k →
    ∃ b, Override.textLoop k pos false (source ps) = .ok b ∧ b.plain = shown ps
  | [], _, _, k, pos, _ => by
    refine ⟨⟨[], [], []⟩, ?_, rfl⟩
    show Override.textLoop k pos false [] = _
    cases k <;> rfl
  | p :: ps, h, hb, k, pos, hk => by
    have hs : source (p :: ps) = p.source ++ source ps := rfl
    rw [hs] at hb hk ⊢
    have ih := analyze_pieces (ps := ps) (fun q hq => h q (by simp [hq])) (fun m => hb (by simp [m]))
    obtain ⟨b, h1, h2⟩ := escape_shown (p := p) (h p (by simp)) (fun m => hb (by simp [m])) k pos (source ps)
      (a := ⟨shown ps, [], []⟩) (fun j pos' hj => .inr (ih j pos' hj)) hk
    exact ⟨b, h1, by rw [h2]; rfl⟩

/-- Where there are no override blocks and no backslash at the end, the shown text is the plain text of the analysis.
Missing: texts with override blocks, and a backslash at the end (`C123_agree_violated`). -/
theorem C123_agree_partial {ps : List Piece} (h : ∀ p ∈ ps, p.Ok) (hb : '{' ∉ source ps) :
    ∃ a, Override.analyze (source ps) = .ok a ∧ a.plain = (fromText (source ps) false).text := by
  obtain ⟨a, h1, h2⟩ := analyze_pieces h hb (source ps).length 0 (Nat.le_refl _)
  have := (C123_breaks h (tail := []) (.inl rfl)).1
  simp only [List.append_nil] at this
  exact ⟨a, h1, by rw [h2, this]⟩

/-- A backslash at the end is kept by one and dropped by the other; override blocks are kept as text. -/
theorem C123_agree_violated :
    (fromText "a\\".toList false).text = "a\\".toList ∧ Override.analyze "a\\".toList = .ok ⟨"a".toList, [], []⟩ ∧
    (fromText "{\\b1}a".toList false).text = "{\\b1}a".toList ∧ (fromText "{\\n1}a".toList false).breaks = [(1, .soft)] := by
  refine ⟨by decide +kernel, by decide +kernel, by decide +kernel, by decide +kernel⟩

/-! ## Counting lines -/

theorem linesAux_length : ∀ (s cur : Str), (linesAux cur s).length =
    newlines s + (if (cur.reverse ++ s).getLast? = none ∨ s.getLast? = some '\n' then 0 else 1)
  | [], [] => rfl
  | [], c :: cur => by simp [linesAux, newlines]
  | c :: s, cur => by
    have e : linesAux cur (c :: s) = if c = '\n' then stripCr cur.reverse :: linesAux [] s else linesAux (c :: cur) s := by
      cases cur <;> rfl
    rw [e]
    by_cases hc : c = '\n'
    · subst hc
      rw [if_pos rfl, List.length_cons, linesAux_length s []]
      simp only [newlines, List.count_cons_self, List.reverse_nil, List.nil_append]
      cases s with
      | nil => simp
      | cons d s =>
        have : ('\n' :: d :: s).getLast? = (d :: s).getLast? := by simp [List.getLast?_cons_cons]
        rw [this]
        have h2 : ¬ (d :: s).getLast? = none := by simp
        have h3 : ¬ (cur.reverse ++ '\n' :: d :: s).getLast? = none := by simp
        simp only [h2, h3, false_or]
        omega
    · rw [if_neg hc, linesAux_length s (c :: cur)]
      simp only [newlines, List.count_cons_of_ne hc]
      cases s with
      | nil => simp [hc]
      | cons d s =>
        have : (c :: d :: s).getLast? = (d :: s).getLast? := by simp [List.getLast?_cons_cons]
        rw [this]
        simp

theorem filter_newlines (s : Str) : (s.filter (· == '\n')).length = newlines s := by
  unfold newlines
  rw [List.count_eq_countP, List.countP_eq_length_filter]

/-- The number of lines of a text that does not end with a line end is the number of line ends and one more.
Missing: texts that end with a line end (`C123_lines_violated`). -/
theorem C123_lines_partial {text : List Char} (h : text.getLast? ≠ some '\n') : countLines text = newlines text + 1 := by
  unfold countLines
  by_cases h0 : text = []
  · rw [if_pos h0, h0]; rfl
  rw [if_neg h0]
  dsimp only
  rw [filter_newlines]
  by_cases h1 : newlines text = 0
  · rw [if_pos h1, h1]
  rw [if_neg h1]
  have hl : text.getLast? ≠ none := by simp [h0]
  by_cases h2 : text.all (· == '\n') = true
  · rw [if_pos h2]
  · rw [if_neg h2]
    unfold lines
    rw [linesAux_length]
    simp only [List.reverse_nil, List.nil_append, hl, h, or_self, if_false]
    omega

example : countLines "a\nb\n\nc".toList = 4 := C123_lines_partial (by decide)

/-- Whatever the text, there is at least one line, and at most one more than line ends. -/
theorem C123_lines_bounds (text : List Char) : 1 ≤ countLines text ∧ countLines text ≤ newlines text + 1 := by
  by_cases h : text.getLast? = some '\n'
  · unfold countLines
    have h0 : text ≠ [] := by rintro rfl; simp at h
    rw [if_neg h0]
    dsimp only
    rw [filter_newlines]
    split
    · omega
    split
    · omega
    · unfold lines
      rw [linesAux_length]
      split <;> omega
  · rw [C123_lines_partial h]; omega

/-- Line ends at the end: the first one of several counts for nothing, the others do, unless there is nothing before them, in which
case all count.  So `a` with two line ends has as many lines as one line end alone, and writing something in front of a line end
takes away a line. -/
theorem C123_lines_violated : countLines "a\n".toList = 1 ∧ countLines "a\n\n".toList = 2 ∧ countLines "\n".toList = 2 ∧
    countLines "\n\n".toList = 3 := by decide

/-- Text in Syriac, Thaana or the presentation forms of Arabic runs from right to left and is not found to. -/
theorem C123_bidi_violated : detectBidi [Char.ofNat 0x0710] = false ∧ detectBidi [Char.ofNat 0x0780] = false ∧
    detectBidi [Char.ofNat 0xFB50] = false ∧ detectBidi [Char.ofNat 0xFE8D] = false := by decide

/-- Every text with a line break counts as complex Unicode, even plain ASCII; so does every text with a tab. -/
theorem C123_complex_violated {text : List Char} (h : '\n' ∈ text) : (figures text).complex = true := by
  unfold figures detectComplex
  exact List.any_eq_true.2 ⟨'\n', h, by decide⟩

example : Override.analyze "one\\Ntwo".toList = .ok ⟨"one\ntwo".toList, [], []⟩ ∧ (figures "one\ntwo".toList).complex = true := by
  refine ⟨by decide +kernel, C123_complex_violated (by decide)⟩

/-- Text from the blocks named in the source is found to run from right to left, and text without any character from them is not; plain
ASCII on one line is not complex.
Missing: scripts outside the named blocks, which are not recognised (`C123_bidi_violated`, `C123_complex_violated`). -/
theorem C123_scripts_partial (text : List Char) :
    (detectBidi text = true ↔ ∃ c ∈ text, (0x0590 ≤ c.toNat ∧ c.toNat ≤ 0x06FF) ∨ (0x0750 ≤ c.toNat ∧ c.toNat ≤ 0x077F) ∨
      (0x08A0 ≤ c.toNat ∧ c.toNat ≤ 0x08FF)) ∧
    ((∀ c ∈ text, 0x20 ≤ c.toNat ∧ c.toNat ≤ 0x7E) → detectComplex text = false ∧ detectBidi text = false) := by
  refine ⟨?_, fun h => ⟨?_, ?_⟩⟩
  · unfold detectBidi
    simp only [List.any_eq_true, Bool.or_eq_true, Bool.and_eq_true, decide_eq_true_eq]
    constructor
    · rintro ⟨c, hc, h⟩; exact ⟨c, hc, by omega⟩
    · rintro ⟨c, hc, h⟩; exact ⟨c, hc, by omega⟩
  · unfold detectComplex
    rw [List.any_eq_false]
    intro c hc
    have := h c hc
    simp only [Bool.or_eq_true, Bool.and_eq_true, decide_eq_true_eq]
    omega
  · unfold detectBidi
    rw [List.any_eq_false]
    intro c hc
    have := h c hc
    simp only [Bool.or_eq_true, Bool.and_eq_true, decide_eq_true_eq]
    omega

end Verif.Props.LineBreaks
