import Verif.Spec.TagProc
import Verif.Lemmas.TagProc
import Verif.Props.Override
import Verif.Props.Segment
import Verif.Lemmas.Resolved
/-!
# C120: all tags of an event at once
-/
namespace Verif.Props
open Verif
open Verif.TagProc
open Verif.Segment (Tags Field Val Seg)
open Verif.Spec.Segment
open Verif.Spec.TagProc
open Verif.Spec.Ovr (Visible Balanced)
open Verif.Override (textLoop analyze)

theorem textLoop_acts {f32 : Str → Option Rat} {s : Str} {bs : List Str} (h : Tagged s bs) : ∀ (k pos : Nat) (m : Bool) (ls : List (List Entry)),
    s.length ≤ k → bs = ls.map blockText → (∀ l ∈ ls, Good f32 l) → (∀ l ∈ ls, ∀ e ∈ l, ∀ a, e.text = "fn".toList ++ a → trim a = a) →
    ∃ a, textLoop k pos m s = .ok a ∧ Acts f32 ls.flatten a.tags := by
  induction h with
  | nil =>
    intro k pos m ls _ hb _ _
    cases ls with
    | cons l ls => cases hb
    | nil => exact ⟨⟨[], [], []⟩, by cases k <;> rfl, .nil⟩
  | block content s bs hc h ih =>
    intro k pos m ls hk hb hg hf
    cases ls with
    | nil => cases hb
    | cons l ls =>
      rw [List.map_cons, List.cons.injEq] at hb
      cases k with
      | zero => simp at hk
      | succ k =>
        rw [List.cons_append]
        unfold textLoop
        rw [if_pos rfl, Override.scanBlock_closed hc]
        dsimp only
        by_cases hlen : byteLen content + (if true = true then 1 else 0) > 1
        · rw [if_pos hlen]
          have hsl : Override.blockSlice content true = some content := rfl
          rw [hsl]
          dsimp only
          obtain ⟨o, h1, h2⟩ := blockLoop_acts (f32 := f32) l (blockText l).length (pos + 1) (Nat.le_refl _) (hg l (by simp)) (hf l (by simp))
          have hpb : Override.parseBlock content (pos + 1) = .ok o := by
            rw [hb.1]; exact h1
          rw [hpb]
          dsimp only
          obtain ⟨a, g1, g2⟩ := ih k (pos + 1 + byteLen content + (if true = true then 1 else 0)) (Override.drawMode content m) ls (by simp at hk; omega) hb.2
            (fun x hx => hg x (List.mem_cons_of_mem _ hx)) (fun x hx => hf x (List.mem_cons_of_mem _ hx))
          rw [g1]
          exact ⟨_, rfl, by rw [List.flatten_cons]; exact h2.append g2⟩
        · rw [if_neg hlen]
          have hce : content = [] := by
            cases content with
            | nil => rfl
            | cons c t => have := utf8Size_pos c; simp at hlen; omega
          have hl : l = [] := by
            cases l with
            | nil => rfl
            | cons e l =>
              rw [hce] at hb
              have := hb.1
              unfold blockText at this
              rw [List.map_cons, tagsText] at this
              cases this
          subst hl
          have ht : takeBytes (content ++ '}' :: s) 1 = some ['}'] := by
            rw [hce]
            simp [takeBytes, show ('}' : Char).utf8Size = 1 from rfl]
          rw [ht]
          dsimp only
          obtain ⟨a, g1, g2⟩ := ih k (pos + 1 + byteLen content + (if true = true then 1 else 0)) m ls (by simp at hk; omega) hb.2
            (fun x hx => hg x (List.mem_cons_of_mem _ hx)) (fun x hx => hf x (List.mem_cons_of_mem _ hx))
          rw [g1]
          exact ⟨_, rfl, g2⟩
  | escape c s bs h ih =>
    intro k pos m ls hk hb hg hf
    cases k with
    | zero => simp at hk
    | succ k =>
      obtain ⟨a, g1, g2⟩ := ih k (pos + 1 + c.utf8Size) m ls (by simp at hk; omega) hb hg hf
      unfold textLoop
      rw [if_neg (by decide), if_pos rfl]
      show ∃ a, Override.prependText (if m = true then [] else Override.escapeText c) (textLoop k (pos + 1 + c.utf8Size) m s) = _ ∧ _
      rw [g1]
      exact ⟨_, rfl, g2⟩
  | char c s bs hc h ih =>
    intro k pos m ls hk hb hg hf
    cases k with
    | zero => simp at hk
    | succ k =>
      obtain ⟨a, g1, g2⟩ := ih k (pos + c.utf8Size) m ls (by simp at hk; omega) hb hg hf
      unfold textLoop
      rw [if_neg hc.1, if_neg hc.2, g1]
      exact ⟨_, rfl, g2⟩

theorem places_spec (x : Char) (s : Str) : ∀ n, (places x n s).Pairwise (· < ·) ∧
    ∀ m, m ∈ places x n s ↔ ∃ a b, s = a ++ x :: b ∧ n + bytes a = m := by
  induction s with
  | nil => intro n; exact ⟨.nil, by simp [places]⟩
  | cons c s ih =>
    intro n
    obtain ⟨h1, h2⟩ := ih (n + c.utf8Size)
    have hpos := utf8Size_pos c
    have step : ∀ m, (∃ a b, c :: s = a ++ x :: b ∧ n + bytes a = m) ↔ ((c = x ∧ m = n) ∨ m ∈ places x (n + c.utf8Size) s) := by
      intro m
      rw [h2]
      constructor
      · rintro ⟨a, b, e, hm⟩
        cases a with
        | nil =>
          injection e with e1 e2
          exact .inl ⟨e1, by rw [← hm]; simp [bytes]⟩
        | cons d a =>
          injection e with e1 e2
          subst e1
          exact .inr ⟨a, b, e2, by rw [← hm]; simp [bytes]; omega⟩
      · rintro (⟨e, hm⟩ | ⟨a, b, e, hm⟩)
        · exact ⟨[], s, by rw [e]; rfl, by rw [hm]; simp [bytes]⟩
        · exact ⟨c :: a, b, by rw [e]; rfl, by rw [← hm]; simp [bytes]; omega⟩
    have hlow : ∀ m ∈ places x (n + c.utf8Size) s, n < m := by
      intro m hm
      obtain ⟨a, b, _, e⟩ := (h2 m).1 hm
      omega
    rw [places]
    split
    · next hc =>
      refine ⟨List.pairwise_cons.2 ⟨hlow, h1⟩, fun m => ?_⟩
      rw [step, List.mem_cons]
      simp [hc]
    · next hc =>
      refine ⟨h1, fun m => ?_⟩
      rw [step]
      simp [hc]

/-- **C120 (text).** The text given back is what the analysis shows, for a text with closed blocks the visible text; and the places listed are those of the line
breaks and hard spaces in it. -/
theorem C120_text {f32 : Str → Option Rat} {text clean : Str} {p : Processed} (h : process f32 text = .ok (p, clean)) :
    (∀ shown, Visible false text shown → clean = shown) ∧ Occurs '\n' clean p.breaks ∧ Occurs ' ' clean p.spaces := by
  unfold process at h
  cases ha : analyze text with
  | err => rw [ha] at h; cases h
  | panic => rw [ha] at h; cases h
  | ok a =>
    rw [ha] at h
    dsimp only at h
    cases hp : TagProc.all f32 a.tags Processed.default with
    | err => rw [hp] at h; cases h
    | panic => rw [hp] at h; cases h
    | ok q =>
      rw [hp] at h
      injection h with h
      injection h with e1 e2
      subst e1 e2
      have h0 : ∀ x, Occurs x a.plain (places x 0 a.plain) := by
        intro x
        have := places_spec x a.plain 0
        refine ⟨this.1, fun n => ?_⟩
        rw [this.2]
        simp only [Nat.zero_add]
      exact ⟨fun shown hv => C33_visible_partial hv ha, h0 _, h0 _⟩

/-- **C120 (tags), partial.** For a text whose blocks are made of plain tags (no `\t`, no `\r`, no vector clip; font names without blanks around them) each
attribute has the value that the last tag in the text gives it, and only those that some tag sets have one.
Missing: blocks with `\t`, `\r` or a vector clip beside other tags (`C120_reset_violated`) and `\fn` without a name
(`C120_font_violated`). -/
theorem C120_tags_partial {f32 : Str → Option Rat} {text : Str} {ls : List (List Entry)} (ht : Tagged text (ls.map blockText)) (hg : ∀ l ∈ ls, Good f32 l)
    (hf : ∀ l ∈ ls, ∀ e ∈ l, ∀ a, e.text = "fn".toList ++ a → trim a = a) :
    ∃ p clean, process f32 text = .ok (p, clean) ∧ (∀ f, valueOf p.tags f = lastSet f (ls.flatten.map (fun e => (e.field, e.val)))) ∧
      p.tags.transforms = [] ∧ p.angle.map Val.number = valueOf p.tags .rotationZ ∧ p.encoding = none ∧ p.baseline = none ∧ p.start = none ∧ p.reset = none := by
  obtain ⟨a, h1, h2⟩ := textLoop_acts ht text.length 0 false ls (Nat.le_refl _) rfl hg hf
  obtain ⟨q, g1, g2, g3, g4, g5, g6, g7, g8, _, _⟩ := all_acts h2 Processed.default rfl rfl
  refine ⟨{ q with breaks := places '\n' 0 a.plain, spaces := places ' ' 0 a.plain }, a.plain, ?_, ?_, g2, ?_, g5, g6, g7, g8⟩
  · unfold process
    have : analyze text = .ok a := h1
    rw [this]
    dsimp only
    rw [g1]
  · intro f
    show valueOf q.tags f = _
    rw [g3]
    have : valueOf Processed.default.tags f = none := rfl
    rw [this, Option.or_none]
  · show q.angle.map Val.number = valueOf q.tags .rotationZ
    rw [Segment.get_read, g4]

example : Tagged "a{\\b1}b{}".toList [blockText [⟨"b1".toList, .bold, .flag true⟩], blockText []] :=
  .char 'a' _ _ (by decide) (.block "\\b1".toList _ _
    (.other _ _ _ (by decide) (by decide) (.other _ _ _ (by decide) (by decide) (.other _ _ _ (by decide) (by decide) .done)))
    (.char 'b' _ _ (by decide) (.block [] [] [] .done .nil)))

/-- **C120 (agreement).** For a text with one block of such tags the values are those that the segmenter gives to the text after the block. -/
theorem C120_agree {f32 : Str → Option Rat} {text : Str} {l : List Entry} (ht : Tagged text [blockText l]) (hg : Good f32 l)
    (hf : ∀ e ∈ l, ∀ a, e.text = "fn".toList ++ a → trim a = a) :
    ∃ p clean u, process f32 text = .ok (p, clean) ∧ Segment.processBlock f32 (blockText l) Tags.default = .ok u ∧
      (∀ f, valueOf p.tags f = valueOf u f) ∧ p.tags.transforms = u.transforms := by
  obtain ⟨p, clean, h1, h2, h3, _⟩ := C120_tags_partial (ls := [l]) ht (by simpa using hg) (by simpa using hf)
  obtain ⟨u, g1, g2, g3⟩ := Segment.C81_block l hg Tags.default
  refine ⟨p, clean, u, h1, g1, fun f => ?_, by rw [h3, g2]; rfl⟩
  have : valueOf Tags.default f = none := rfl
  rw [h2, g3, this, Option.or_none]
  simp

/-- **C120 (reset), disagreement.** `\r` does not take back what was set before it, as it does in the segmenter. -/
theorem C120_reset_violated :
    (match process (fun _ => none) "{\\b1}a{\\r}b".toList with
      | .ok (p, _) => some (valueOf p.tags .bold, p.reset) | _ => none) = some (some (.flag true), some []) ∧
    (match Segment.segment (fun _ => none) "{\\b1}a{\\r}b".toList with
      | .ok l => l.map (fun g => valueOf g.tags .bold) | _ => []) = [some (.flag true), none] := by decide +kernel

/-- **C120 (font), disagreement.** `\fn` without a name, which goes back to the style's font, sets an empty name. -/
theorem C120_font_violated :
    (match process (fun _ => none) "{\\fnArial}a{\\fn}b".toList with
      | .ok (p, _) => valueOf p.tags .fontName | _ => none) = some (.text []) := by decide +kernel

/-- **C120 (breaks), disagreement.** A soft line break cannot be told from a hard one. -/
theorem C120_soft_violated : process (fun _ => none) "a\\nb".toList = process (fun _ => none) "a\\Nb".toList ∧
    ∃ r, process (fun _ => none) "a\\Nb".toList = .ok r ∧ r.1.breaks = [1] := by
  refine ⟨by decide +kernel, _, rfl, by decide +kernel⟩

/-- **C120 (karaoke), disagreement.** `\kt` before a syllable, where it belongs, is lost; after it it is kept. -/
theorem C120_start_violated :
    (match process (fun _ => none) "{\\kt100\\k50}a".toList with | .ok (p, _) => (valueOf p.tags .karaoke, p.start) | _ => (none, none)) =
      (some (.karaoke 50 .basic), none) ∧
    (match process (fun _ => none) "{\\k50\\kt100}a".toList with | .ok (p, _) => (valueOf p.tags .karaoke, p.start) | _ => (none, none)) =
      (some (.karaoke 50 .basic), some 100) := by decide +kernel

/-- **C120 (crash), disagreement.** Times of `\fade` that go backwards stop the program where overflow is checked. -/
theorem C120_fade_violated : process (fun _ => none) "{\\fade(0,0,0,100,0,0,0)}a".toList = .panic := by decide +kernel

theorem balanced_plain {s : Str} (h1 : '{' ∉ s) (h2 : '}' ∉ s) : Balanced 1 s := by
  induction s with
  | nil => exact .done
  | cons c s ih =>
    exact .other _ _ _ (fun e => h1 (by simp [e])) (fun e => h2 (by simp [e])) (ih (fun e => h1 (by simp [e])) (fun e => h2 (by simp [e])))

theorem process_one {f32 : Str → Option Rat} {n a words : Str} (hs : Override.scanName [] (n ++ a) = (n, a)) (hn : trim n ≠ []) (ht : n ≠ "t".toList)
    (ha : '\\' ∉ a) (h1 : '{' ∉ n ++ a) (h2 : '}' ∉ n ++ a) (hw : Tagged words []) {q : Processed} (hq : single f32 n a Processed.default = .ok q) :
    ∃ p clean, process f32 ('{' :: '\\' :: (n ++ a) ++ '}' :: words) = .ok (p, clean) ∧ p.tags = q.tags ∧ p.encoding = q.encoding ∧ p.baseline = q.baseline ∧
      p.start = q.start ∧ p.reset = q.reset := by
  have hne : n ≠ [] := by intro e; rw [e] at hn; exact hn rfl
  have hb : Balanced 1 ('\\' :: (n ++ a)) := balanced_plain (by simpa using h1) (by simpa using h2)
  have hargs : Override.scanArgs n a = (a, []) := by
    obtain ⟨w1, w2⟩ := TagProc.takeWhile_all ha (rest := []) (.inl rfl)
    rw [List.append_nil] at w1 w2
    unfold Override.scanArgs
    split
    · rw [if_neg ht, w1, w2]
    · rw [w1, w2]
  have hblock : ∀ st, Override.parseBlock ('\\' :: (n ++ a)) st = .ok ⟨[⟨n, a, st⟩], []⟩ := by
    intro st
    unfold Override.parseBlock
    rw [List.length_cons, Override.blockLoop, if_pos rfl, hs]
    dsimp only
    rw [if_pos hne, hargs]
    dsimp only
    rw [if_neg hn]
    cases (n ++ a).length <;> rfl
  have hloop : ∃ b, analyze ('{' :: '\\' :: (n ++ a) ++ '}' :: words) = .ok b ∧ b.tags = [⟨n, a, 1⟩] := by
    unfold analyze
    rw [List.cons_append, List.length_cons]
    unfold textLoop
    rw [if_pos rfl, Override.scanBlock_closed hb]
    dsimp only
    rw [if_pos (by
      simp only [byteLen_cons, if_true]
      have := utf8Size_pos '\\'
      omega)]
    have hsl : Override.blockSlice ('\\' :: (n ++ a)) true = some ('\\' :: (n ++ a)) := rfl
    rw [hsl]
    dsimp only
    rw [hblock]
    dsimp only
    obtain ⟨b, g1, g2⟩ := textLoop_acts (f32 := f32) hw ('\\' :: (n ++ a) ++ '}' :: words).length (0 + 1 + byteLen ('\\' :: (n ++ a)) + (if true = true then 1 else 0))
      (Override.drawMode ('\\' :: (n ++ a)) false) [] (by simp; omega) rfl (by simp) (by simp)
    rw [g1]
    refine ⟨_, rfl, ?_⟩
    cases hbt : b.tags with
    | nil => rfl
    | cons x y => rw [hbt] at g2; cases g2
  obtain ⟨b, e1, e2⟩ := hloop
  refine ⟨{ q with breaks := places '\n' 0 b.plain, spaces := places '\u00A0' 0 b.plain }, b.plain, ?_, rfl, rfl, rfl, rfl, rfl⟩
  unfold process
  rw [e1]
  dsimp only
  have : TagProc.all f32 b.tags Processed.default = .ok q := by
    rw [e2, TagProc.all, hq]
    rfl
  rw [this]

theorem dec_chars (n : Nat) (c : Char) (hc : ¬ (48 ≤ c.toNat ∧ c.toNat ≤ 57)) : c ∉ dec n := by
  intro h
  have := showNat_digits n c h
  exact hc ((Override.isDigit_iff c).1 this)

/-- **C120 (other tags).** Encoding, start of a syllable, baseline and reset are taken from their tags. -/
theorem C120_others {f32 : Str → Option Rat} {words : Str} (hw : Tagged words []) :
    (∀ n, n < 256 → ∃ p c, process f32 ('{' :: '\\' :: ("fe".toList ++ dec n) ++ '}' :: words) = .ok (p, c) ∧ p.encoding = some n) ∧
    (∀ n, n < 2 ^ 32 → ∃ p c, process f32 ('{' :: '\\' :: ("kt".toList ++ dec n) ++ '}' :: words) = .ok (p, c) ∧ p.start = some n ∧
      valueOf p.tags .karaoke = some (.karaoke 0 .basic)) ∧
    (∀ a v, f32 a = some v → (∀ c, a.head? = some c → ¬ Spec.Ovr.Letter c) → '\\' ∉ a → '{' ∉ a → '}' ∉ a →
      ∃ p c, process f32 ('{' :: '\\' :: ("pbo".toList ++ a) ++ '}' :: words) = .ok (p, c) ∧ p.baseline = some v) ∧
    (∀ a, Spec.EventCmd.Trimmed a → '\\' ∉ a → '{' ∉ a → '}' ∉ a →
      ∃ p c, process f32 ('{' :: '\\' :: ("r".toList ++ a) ++ '}' :: words) = .ok (p, c) ∧ p.reset = some a) := by
  refine ⟨?_, ?_, ?_, ?_⟩
  · intro n hn
    obtain ⟨p, c, h1, _, h2, _⟩ := process_one (f32 := f32) (n := "fe".toList) (a := dec n) (words := words)
      (scan_readable (by decide) (Segment.stops_dec n)) (by decide) (by decide) (dec_chars n _ (by decide))
      (by simp only [List.mem_append, not_or]; exact ⟨by decide, dec_chars n _ (by decide)⟩)
      (by simp only [List.mem_append, not_or]; exact ⟨by decide, dec_chars n _ (by decide)⟩) hw (q := ⟨Tags.default, none, some n, none, none, none, [], []⟩)
      (by
        unfold single
        rw [if_neg (by decide), if_pos rfl, Segment.u8_dec hn]
        rfl)
    exact ⟨p, c, h1, h2⟩
  · intro n hn
    obtain ⟨p, c, h1, h2, _, _, h3, _⟩ := process_one (f32 := f32) (n := "kt".toList) (a := dec n) (words := words)
      (scan_readable (by decide) (Segment.stops_dec n)) (by decide) (by decide) (dec_chars n _ (by decide))
      (by simp only [List.mem_append, not_or]; exact ⟨by decide, dec_chars n _ (by decide)⟩)
      (by simp only [List.mem_append, not_or]; exact ⟨by decide, dec_chars n _ (by decide)⟩) hw
      (q := ⟨Tags.default.setOpt .karaoke (some (.karaoke 0 .basic)), none, none, none, some n, none, [], []⟩)
      (by
        unfold single
        rw [if_neg (by decide), if_neg (by decide), if_neg (by decide), if_neg (by decide), if_pos rfl]
        unfold karaokeStart
        rw [Segment.u32_dec hn]
        rfl)
    exact ⟨p, c, h1, h3, by rw [h2]; rfl⟩
  · intro a v hv hs hb h1 h2
    obtain ⟨p, c, h1, _, _, h2, _⟩ := process_one (f32 := f32) (n := "pbo".toList) (a := a) (words := words)
      (scan_readable (by decide) hs) (by decide) (by decide) hb
      (by simp only [List.mem_append, not_or]; exact ⟨by decide, h1⟩)
      (by simp only [List.mem_append, not_or]; exact ⟨by decide, h2⟩) hw (q := ⟨Tags.default, none, none, some v, none, none, [], []⟩)
      (by
        unfold single
        rw [if_neg (by decide), if_neg (by decide), if_neg (by decide), if_pos rfl, hv]
        rfl)
    exact ⟨p, c, h1, h2⟩
  · intro a ht hb h1 h2
    obtain ⟨p, c, h1, _, _, _, _, h2⟩ := process_one (f32 := f32) (n := "r".toList) (a := a) (words := words)
      rfl (by decide) (by decide) hb
      (by simp only [List.mem_append, not_or]; exact ⟨by decide, h1⟩)
      (by simp only [List.mem_append, not_or]; exact ⟨by decide, h2⟩) hw (q := ⟨Tags.default, none, none, none, none, some a, [], []⟩)
      (by
        unfold single
        rw [if_neg (by decide), if_neg (by decide), if_pos rfl, EventCmd.trimmed_trim ht]
        rfl)
    exact ⟨p, c, h1, h2⟩

theorem process_two {f32 : Str → Option Rat} {n a m b words : Str} (hs : Override.scanName [] (n ++ (a ++ '\\' :: (m ++ b))) = (n, a ++ '\\' :: (m ++ b)))
    (hs2 : Override.scanName [] (m ++ b) = (m, b)) (hn : trim n ≠ []) (hm : trim m ≠ []) (ht : n ≠ "t".toList) (ht2 : m ≠ "t".toList)
    (ha : '\\' ∉ a) (hb : '\\' ∉ b) (h1 : '{' ∉ n ++ a ++ (m ++ b)) (h2 : '}' ∉ n ++ a ++ (m ++ b)) (hw : Tagged words []) {q r : Processed}
    (hq : single f32 n a Processed.default = .ok q) (hr : single f32 m b q = .ok r) :
    ∃ p clean, process f32 ('{' :: '\\' :: (n ++ (a ++ '\\' :: (m ++ b))) ++ '}' :: words) = .ok (p, clean) ∧ p.encoding = r.encoding ∧
      p.baseline = r.baseline := by
  have hne : n ≠ [] := by intro e; rw [e] at hn; exact hn rfl
  have hme : m ≠ [] := by intro e; rw [e] at hm; exact hm rfl
  have hbal : Balanced 1 ('\\' :: (n ++ (a ++ '\\' :: (m ++ b)))) := by
    refine balanced_plain ?_ ?_
    · simp only [List.mem_cons, List.mem_append, not_or] at h1 ⊢
      exact ⟨by decide, h1.1.1, h1.1.2, by decide, h1.2.1, h1.2.2⟩
    · simp only [List.mem_cons, List.mem_append, not_or] at h2 ⊢
      exact ⟨by decide, h2.1.1, h2.1.2, by decide, h2.2.1, h2.2.2⟩
  have scan : ∀ (n a rest : Str), n ≠ "t".toList → '\\' ∉ a → (rest = [] ∨ rest.head? = some '\\') → Override.scanArgs n (a ++ rest) = (a, rest) := by
    intro n a rest ht ha hr
    obtain ⟨w1, w2⟩ := TagProc.takeWhile_all ha (rest := rest) hr
    unfold Override.scanArgs
    split
    · rw [if_neg ht, w1, w2]
    · rw [w1, w2]
  have hblock : ∀ st, ∃ st2, Override.parseBlock ('\\' :: (n ++ (a ++ '\\' :: (m ++ b)))) st = .ok ⟨[⟨n, a, st⟩, ⟨m, b, st2⟩], []⟩ := by
    intro st
    unfold Override.parseBlock
    rw [List.length_cons, Override.blockLoop, if_pos rfl, hs]
    dsimp only
    rw [if_pos hne, scan n a _ ht ha (Or.inr rfl)]
    dsimp only
    rw [if_neg hn]
    obtain ⟨k, hk⟩ : ∃ k, (n ++ (a ++ '\\' :: (m ++ b))).length = k + 1 := ⟨n.length + a.length + m.length + b.length, by simp; omega⟩
    rw [hk, Override.blockLoop, if_pos rfl, hs2]
    dsimp only
    have e := scan m b [] ht2 hb (Or.inl rfl)
    rw [List.append_nil] at e
    rw [if_pos hme, e]
    dsimp only
    rw [if_neg hm]
    refine ⟨st + 1 + byteLen n + byteLen a, ?_⟩
    cases k <;> rfl
  have hloop : ∃ c st2, analyze ('{' :: '\\' :: (n ++ (a ++ '\\' :: (m ++ b))) ++ '}' :: words) = .ok c ∧ c.tags = [⟨n, a, 1⟩, ⟨m, b, st2⟩] := by
    unfold analyze
    rw [List.cons_append, List.length_cons]
    unfold textLoop
    rw [if_pos rfl, Override.scanBlock_closed hbal]
    dsimp only
    rw [if_pos (by
      simp only [byteLen_cons, if_true]
      have := utf8Size_pos '\\'
      omega)]
    have hsl : Override.blockSlice ('\\' :: (n ++ (a ++ '\\' :: (m ++ b)))) true = some ('\\' :: (n ++ (a ++ '\\' :: (m ++ b)))) := rfl
    rw [hsl]
    dsimp only
    obtain ⟨st2, e⟩ := hblock (0 + 1)
    rw [e]
    dsimp only
    obtain ⟨c, g1, g2⟩ := textLoop_acts (f32 := f32) hw ('\\' :: (n ++ (a ++ '\\' :: (m ++ b))) ++ '}' :: words).length
      (0 + 1 + byteLen ('\\' :: (n ++ (a ++ '\\' :: (m ++ b)))) + (if true = true then 1 else 0))
      (Override.drawMode ('\\' :: (n ++ (a ++ '\\' :: (m ++ b)))) false) [] (by simp; omega) rfl (by simp) (by simp)
    rw [g1]
    refine ⟨_, st2, rfl, ?_⟩
    cases hbt : c.tags with
    | nil => rfl
    | cons x y => rw [hbt] at g2; cases g2
  obtain ⟨c, st2, e1, e2⟩ := hloop
  refine ⟨{ r with breaks := places '\n' 0 c.plain, spaces := places '\u00A0' 0 c.plain }, c.plain, ?_, rfl, rfl⟩
  unfold process
  rw [e1]
  dsimp only
  have : TagProc.all f32 c.tags Processed.default = .ok r := by
    rw [e2, TagProc.all, hq]
    dsimp only
    rw [TagProc.all, hr]
    rfl
  rw [this]

/-- **C120 (bad arguments).** An encoding or a baseline that cannot be read leaves the one before it in force. -/
theorem C120_kept {f32 : Str → Option Rat} {words bad : Str} (hw : Tagged words []) (hh : ∀ c, bad.head? = some c → ¬ Spec.Ovr.Letter c)
    (hb : '\\' ∉ bad) (h1 : '{' ∉ bad) (h2 : '}' ∉ bad) :
    (∀ n, n < 256 → (∀ v, ¬ Spec.Resolved.Whole 256 bad v) → ∃ p c,
      process f32 ('{' :: '\\' :: ("fe".toList ++ (dec n ++ '\\' :: ("fe".toList ++ bad))) ++ '}' :: words) = .ok (p, c) ∧ p.encoding = some n) ∧
    (∀ a v, f32 a = some v → f32 bad = none → (∀ c, a.head? = some c → ¬ Spec.Ovr.Letter c) → '\\' ∉ a → '{' ∉ a → '}' ∉ a → ∃ p c,
      process f32 ('{' :: '\\' :: ("pbo".toList ++ (a ++ '\\' :: ("pbo".toList ++ bad))) ++ '}' :: words) = .ok (p, c) ∧ p.baseline = some v) := by
  have stop : ∀ (a r : Str), (∀ c, a.head? = some c → ¬ Spec.Ovr.Letter c) → Segment.Stops (a ++ '\\' :: r) := by
    intro a r h c hc
    cases a with
    | nil => cases hc; unfold Spec.Ovr.Letter; decide
    | cons x a => exact h c hc
  refine ⟨?_, ?_⟩
  · intro n hn hbad
    obtain ⟨p, c, g1, g2, _⟩ := process_two (f32 := f32) (n := "fe".toList) (a := dec n) (m := "fe".toList) (b := bad) (words := words)
      (scan_readable (by decide) (stop _ _ (Segment.stops_dec n))) (scan_readable (by decide) hh) (by decide) (by decide) (by decide) (by decide)
      (dec_chars n _ (by decide)) hb
      (by simp only [List.mem_append, not_or]; exact ⟨⟨by decide, dec_chars n _ (by decide)⟩, by decide, h1⟩)
      (by simp only [List.mem_append, not_or]; exact ⟨⟨by decide, dec_chars n _ (by decide)⟩, by decide, h2⟩) hw
      (q := ⟨Tags.default, none, some n, none, none, none, [], []⟩) (r := ⟨Tags.default, none, some n, none, none, none, [], []⟩)
      (by
        unfold single
        rw [if_neg (by decide), if_pos rfl, Segment.u8_dec hn]
        rfl)
      (by
        have : Segment.parseU8 bad = none := by
          cases hv : Segment.parseU8 bad with
          | none => rfl
          | some v => exact absurd (Resolved.whole_iff.1 hv) (hbad v)
        unfold single
        rw [if_neg (by decide), if_pos rfl, this]
        rfl)
    exact ⟨p, c, g1, g2⟩
  · intro a v hv hbad hs ha ha1 ha2
    obtain ⟨p, c, g1, _, g2⟩ := process_two (f32 := f32) (n := "pbo".toList) (a := a) (m := "pbo".toList) (b := bad) (words := words)
      (scan_readable (by decide) (stop _ _ hs)) (scan_readable (by decide) hh) (by decide) (by decide) (by decide) (by decide) ha hb
      (by simp only [List.mem_append, not_or]; exact ⟨⟨by decide, ha1⟩, by decide, h1⟩)
      (by simp only [List.mem_append, not_or]; exact ⟨⟨by decide, ha2⟩, by decide, h2⟩) hw
      (q := ⟨Tags.default, none, none, some v, none, none, [], []⟩) (r := ⟨Tags.default, none, none, some v, none, none, [], []⟩)
      (by
        unfold single
        rw [if_neg (by decide), if_neg (by decide), if_neg (by decide), if_pos rfl, hv]
        rfl)
      (by
        unfold single
        rw [if_neg (by decide), if_neg (by decide), if_neg (by decide), if_pos rfl, hbad]
        rfl)
    exact ⟨p, c, g1, g2⟩

example : (match process (fun _ => none) "{\\fe5\\fe999}a".toList with | .ok (p, _) => p.encoding | _ => none) = some 5 := by decide +kernel

end Verif.Props
