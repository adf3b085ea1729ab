import Verif.Lemmas.Simd
import Verif.Lemmas.Encoding
/-! Properties C08 (tokens cover the source), C92 (types and places of tokens), C93 (accelerated scanning) and C94 (encodings). -/
namespace Verif.Props
open Verif
open Verif.Tokenizer
open Verif.Spec.Tokenizer
open Verif.Spec.Script (size)

/-! ## C08 -/

/-- **C08 (progress and coverage), partial.** On every source the calls return finitely many tokens and then `None` for ever; the
tokens are non-empty stretches of the source in order, without overlap, and between them lies only white space within a line, and
nothing in a field value.  Only if the source ends with a carriage return that ends no other token, one call returns an error
instead, and that carriage return is in no token.

Missing: a token for that carriage return (see `C08_cr_violated`). -/
theorem C08_cover_partial (simd : Bool) (src : Str) : ∃ ts : List Tok,
    (∀ k t, ts[k]? = some t → result simd src k = .tok t) ∧
    (((∀ k, ts.length ≤ k → result simd src k = .done) ∧ Laid false (skipped src) (body src) ts) ∨
     (result simd src ts.length = .err ∧ (∀ k, ts.length < k → result simd src k = .done) ∧
       ∃ s, body src = s ++ ['\r'] ∧ Laid false (skipped src) s ts)) := by
  obtain ⟨pre, h1, h2, h3, _⟩ := inv_init simd src
  obtain ⟨ts, h4, h5⟩ := run (simd := simd) (init src).rest.length (Nat.le_refl _) h3
  have hr : ∀ k, result simd src k = (next simd (iter simd (init src) k)).1 := fun k => by unfold result; rw [after_eq]
  have hc : (init src).ctx = .document := by
    unfold init
    split
    · split <;> rfl
    · rfl
  have hb : body src = (init src).rest ∧ skipped src = (init src).nav.pos := by
    cases src with
    | nil => exact ⟨rfl, rfl⟩
    | cons c s =>
      have hc : (c = Char.ofNat 0xFEFF) ↔ c.toNat = 0xFEFF :=
        ⟨fun h => by rw [h]; rfl, fun h => by rw [← h]; exact (Char.ofNat_toNat c).symm⟩
      by_cases h : c.toNat = 0xFEFF
      · rw [body, skipped, init, if_pos h, if_pos h, if_pos (hc.2 h)]; exact ⟨rfl, rfl⟩
      · rw [body, skipped, init, if_neg h, if_neg h, if_neg (fun e => h (hc.1 e))]; exact ⟨rfl, rfl⟩
  rw [hc] at h5
  refine ⟨ts, fun k t ht => by rw [hr]; exact h4 k t ht, ?_⟩
  rw [hb.1, hb.2]
  rcases h5 with ⟨h6, h7⟩ | ⟨h6, h7, h8⟩
  · exact .inl ⟨fun k hk => by rw [hr]; exact h6 k hk, h7⟩
  · exact .inr ⟨by rw [hr]; exact h6, fun k hk => by rw [hr]; exact h7 k hk, h8⟩

example : result true "[A]\nK: v, w".toList 0 = .tok ⟨.sectionHeader, "[A".toList, 0, 1, 1⟩ ∧
    result true "[A]\nK: v, w".toList 4 = .tok ⟨.colon, ":".toList, 5, 2, 1⟩ ∧
    result true "[A]\nK: v, w".toList 5 = .tok ⟨.text, " v".toList, 6, 2, 2⟩ ∧
    result true "[A]\nK: v, w".toList 8 = .done := by decide

theorem collect_run {simd : Bool} : ∀ (ts : List Tok) (k : Nat) (st : St),
    (∀ i t, ts[i]? = some t → (next simd (iter simd st i)).1 = .tok t) → (∀ t, (next simd (iter simd st ts.length)).1 ≠ .tok t) →
    collect simd k st = if ts.length ≤ k ∧ (next simd (iter simd st ts.length)).1 = .done then some ts else none
  | [], k, st, _, h2 => by
    rw [collect]
    have e : iter simd st ([] : List Tok).length = st := rfl
    rw [e] at h2 ⊢
    cases hn : next simd st with
    | mk r st' =>
      rw [hn] at h2
      cases r with
      | tok t => exact absurd rfl (h2 t)
      | done => simp
      | err => simp
  | t :: ts, k, st, h1, h2 => by
    have h0 : (next simd st).1 = .tok t := h1 0 t rfl
    rw [collect]
    cases hn : next simd st with
    | mk r st' =>
      have e : ∀ i, iter simd st (i + 1) = iter simd st' i := fun i => by rw [iter, hn]
      rw [hn] at h0
      simp only at h0
      subst h0
      simp only [List.length_cons, e]
      cases k with
      | zero => simp
      | succ k =>
        simp only
        rw [collect_run ts k st' (fun i x hx => by rw [← e]; exact h1 (i + 1) x hx) (fun x => by rw [← e]; exact h2 x)]
        by_cases hc : ts.length ≤ k ∧ (next simd (iter simd st' ts.length)).1 = .done
        · rw [if_pos hc, if_pos ⟨by omega, hc.2⟩]; rfl
        · rw [if_neg hc, if_neg (fun h => hc ⟨by omega, h.2⟩)]; rfl

/-- **C08 (all at once), partial.** `tokenize_all` returns exactly the tokens that the single calls return, if these are at most
50 and none of them fails; otherwise it fails (see `C08_limit_violated`). -/
theorem C08_all_partial (simd : Bool) (src : Str) (ts : List Tok) (h1 : ∀ k t, ts[k]? = some t → result simd src k = .tok t)
    (h2 : ∀ t, result simd src ts.length ≠ .tok t) :
    tokenizeAll simd src = if ts.length ≤ 50 ∧ result simd src ts.length = .done then some ts else none := by
  have hr : ∀ k, result simd src k = (next simd (iter simd (init src) k)).1 := fun k => by unfold result; rw [after_eq]
  rw [hr]
  exact collect_run ts 50 (init src) (fun i t h => by rw [← hr]; exact h1 i t h) (fun t => by rw [← hr]; exact h2 t)

example : tokenizeAll false "a,b".toList = some [⟨.text, ['a'], 0, 1, 1⟩, ⟨.comma, [','], 1, 1, 2⟩, ⟨.text, ['b'], 2, 1, 3⟩] := by decide

/-- **C08, disagreement.** A source of 51 tokens, each returned by the single calls, is refused. -/
theorem C08_limit_violated (simd : Bool) : tokenizeAll simd (List.replicate 51 ',') = none ∧
    ∀ k < 51, ∃ t, result simd (List.replicate 51 ',') k = .tok t := by
  have h : ∀ k < 51, (match result simd (List.replicate 51 ',') k with | .tok _ => true | _ => false) = true := by
    cases simd <;> decide +kernel
  refine ⟨by cases simd <;> decide +kernel, fun k hk => ?_⟩
  have := h k hk
  split at this
  · rename_i t ht; exact ⟨t, ht⟩
  · cases this

/-- **C08, disagreement.** A carriage return at the end of the source makes tokenizing fail. -/
theorem C08_cr_violated (simd : Bool) : result simd "a\r".toList 1 = .err ∧ tokenizeAll simd "a\r".toList = none ∧
    (∃ ts, tokenizeAll simd "a\n".toList = some ts) := by
  cases simd <;> exact ⟨by decide, by decide, _, rfl⟩

/-! ## C92 -/

/-- **C92 (types and places), partial.** Every returned token stands at its place in the source, and looks as its type says.
Without the feature `simd` its line and column are the right ones; with it, the line is right if every carriage return is followed
by a line feed.

Missing: lines and columns with the feature `simd`, which is on by default (see `C92_column_violated`, `C92_line_violated`). -/
theorem C92_token_partial {simd : Bool} {src : Str} {k : Nat} {t : Tok} (h : result simd src k = .tok t) :
    ∃ a s, body src = a ++ t.span ++ s ∧ t.start = skipped src + size a ∧ Shape t s ∧ t.span ≠ [] ∧
      (simd = false → t.line = 1 + breaks false a ∧ t.col = 1 + tailLen 0 a) ∧ (CrLf (body src) → t.line = 1 + breaks false a) :=
  (inv_next (inv_after simd src k)).2 t h

example : result false "a\r\nb: {\\b1{x}}c".toList 4 = .tok ⟨.whitespace, [' '], 5, 2, 3⟩ ∧
    result false "a\r\nb: {\\b1{x}}c".toList 5 = .tok ⟨.overrideBlock, "{\\b1{x}".toList, 6, 2, 4⟩ := by decide

/-- **C92, disagreement.** With `simd`, the column of the colon in `Title: x` is 1 instead of 6. -/
theorem C92_column_violated : result true "Title: x".toList 1 = .tok ⟨.colon, [':'], 5, 1, 1⟩ ∧ 1 + tailLen 0 "Title".toList = 6 := by decide

/-- **C92, disagreement.** With `simd`, after a carriage return and a text the next line feed is not counted. -/
theorem C92_line_violated : result true "\ra\nb".toList 3 = .tok ⟨.text, ['b'], 3, 2, 1⟩ ∧ 1 + breaks false "\ra\n".toList = 3 := by decide

/-! ## C93 -/

/-- **C93 (delimiters).** The accelerated search finds the byte where the first delimiter character of the text stands: the text
before it is what the plain loop passes. -/
theorem C93_delimiters (a : Str) (c : Char) (b : Str) (ha : ∀ x ∈ a, ¬ x ∈ [':', ',', '{', '}', '[', ']', '\n', '\r'])
    (hc : c ∈ [':', ',', '{', '}', '[', ']', '\n', '\r']) :
    Simd.scanDelimiters (a ++ c :: b) = some (size a) ∧ Simd.scanDelimiters a = none := by
  have hd : ∀ x : Char, isDelim x = true ↔ x ∈ [':', ',', '{', '}', '[', ']', '\n', '\r'] := by
    intro x
    unfold isDelim
    simp only [Bool.or_eq_true, beq_iff_eq, List.mem_cons, List.not_mem_nil, or_false]
    constructor
    · rintro (((((((h | h) | h) | h) | h) | h) | h) | h) <;> simp [h]
    · rintro (h | h | h | h | h | h | h | h) <;> simp [h]
  have ha' : ∀ x ∈ a, (!isDelim x) = true := by
    intro x hx
    cases h : isDelim x with
    | false => rfl
    | true => exact absurd ((hd x).1 h) (ha x hx)
  have hc' : isDelim c = true := (hd c).2 hc
  rw [Simd.scanDelimiters_eq, Simd.scanDelimiters_eq, Simd.first_delim, Simd.first_delim]
  constructor
  · rw [List.takeWhile_append_of_pos ha', List.dropWhile_append_of_pos ha', List.takeWhile_cons, List.dropWhile_cons]
    simp [hc']
  · rw [dropWhile_all ha', if_pos rfl]

example : Simd.scanDelimiters "Länge des Untertitels, Text".toList = some 22 := by decide

/-- **C93 (hexadecimal numbers).** One to eight hexadecimal digits are read as the number they stand for; a text of at least four
bytes with any other character is refused. -/
theorem C93_hex (s : Str) : (s ≠ [] → s.length ≤ 8 → (∀ c ∈ s, Hex c) →
      Simd.parseHexU32 s = some (s.foldl (fun n c => n * 16 + (Spec.hexDigit c).getD 0) 0)) ∧
    (4 ≤ size s → (∃ c ∈ s, ¬ Hex c) → Simd.parseHexU32 s = none) := by
  have hv : ∀ (s : Str) acc, Simd.value acc s = s.foldl (fun n c => n * 16 + (Spec.hexDigit c).getD 0) acc := by
    intro s
    induction s with
    | nil => intro acc; rfl
    | cons c s ih => intro acc; rw [Simd.value, ih]; rfl
  refine ⟨?_, ?_⟩
  · intro hne hl hx
    have hs : byteLen s = s.length := hex_size hx
    have hlt : Simd.value 0 s < u32Bound := by
      have := Simd.value_lt s 0 hx
      refine Nat.lt_of_lt_of_le this ?_
      rw [Nat.zero_add, Nat.one_mul]
      exact Nat.le_trans (Nat.pow_le_pow_right (by omega) hl) (by decide)
    rw [← hv]
    unfold Simd.parseHexU32
    rw [hs, if_neg (by rintro (h | h); · exact hne h
                       · omega)]
    by_cases h4 : s.length ≥ 4
    · rw [if_pos h4]; exact Simd.hexLoop_eq s 0 hx hlt
    · rw [if_neg h4]
      refine Color.parseUnsigned_no_plus hne ?_ (Simd.digitsVal_eq s 0 hx) hlt
      intro h
      have := hx _ h
      unfold Hex Digit at this
      have e : '+'.toNat = 43 := rfl
      rw [e] at this
      omega
  · intro h4 hx
    unfold Simd.parseHexU32
    split
    · rfl
    · rw [if_pos (show byteLen s ≥ 4 from h4)]
      exact Simd.hexLoop_none s 0 hx

example : Simd.parseHexU32 "00FF7f".toList = some 0xFF7F ∧ Simd.parseHexU32 "00FG".toList = none := by decide

/-- **C93, disagreement.** A plus sign is accepted in a short number, but not in a longer one. -/
theorem C93_plus_violated : Simd.parseHexU32 "+FF".toList = some 255 ∧ Simd.parseHexU32 "+0FF".toList = none := by decide

/-- **C93 (tokens), partial.** In a source without semicolons the tokens are the same with and without the feature `simd`: each
call returns a token of the same type, text and place, or both return none, or both fail.

Missing: sources with semicolons (see `C93_comment_violated`), lines and columns (C92). -/
theorem C93_tokens_partial {src : Str} (h : ';' ∉ src) (k : Nat) :
    (∀ t, result true src k = .tok t → ∃ t', result false src k = .tok t' ∧ t'.ty = t.ty ∧ t'.span = t.span ∧ t'.start = t.start) ∧
    (result true src k = .done ↔ result false src k = .done) ∧ (result true src k = .err ↔ result false src k = .err) := by
  obtain ⟨h1, h2⟩ := same_after h k
  obtain ⟨_, _, _, h3, _⟩ := inv_after true src k
  have h4 := (same_next h1 h3 h2).1
  unfold result
  generalize (next true (after true src k)).1 = r at h4
  generalize (next false (after false src k)).1 = r' at h4
  cases r <;> cases r' <;> simp [bareRes] at h4 ⊢
  exact ⟨h4.1.symm, h4.2.1.symm, h4.2.2.symm⟩

example : result true "Dialogue: 0,a".toList 3 = .tok ⟨.comma, [','], 11, 1, 4⟩ ∧ result false "Dialogue: 0,a".toList 3 = .tok ⟨.comma, [','], 11, 1, 12⟩ := by decide

/-- **C93, disagreement.** A semicolon within a line begins a comment only without the feature `simd`. -/
theorem C93_comment_violated : result false "a;b".toList 0 = .tok ⟨.text, ['a'], 0, 1, 1⟩ ∧ result false "a;b".toList 1 = .tok ⟨.comment, ";b".toList, 1, 1, 2⟩ ∧
    result true "a;b".toList 0 = .tok ⟨.text, "a;b".toList, 0, 1, 1⟩ := by decide

/-- **C93 (validation), partial.** The accelerated check of UTF-8 accepts exactly the valid bytes.  Missing: the position in
its error (see `C93_position_violated`). -/
theorem C93_utf8_partial (b : List Nat) : Encoding.validateBatch b = none ↔ Spec.Encoding.Valid b := by
  have hv : ∀ b, Encoding.validateUtf8 b = none ↔ Spec.Encoding.Valid b := fun b =>
    ⟨(Encoding.invalidAt_spec _ _ b (Nat.le_refl _)).1, Encoding.valid_none _ _ b (Nat.le_refl _)⟩
  unfold Encoding.validateBatch
  by_cases h : 16 ≤ b.length
  · rw [if_pos h]
    have := Encoding.asciiChunks_spec b.length b
    cases hc : Encoding.asciiChunks b.length b with
    | mk x r =>
      rw [hc] at this
      cases x with
      | false => exact hv b
      | true =>
        obtain ⟨a, h1, h2⟩ := this rfl
        simp only at h2 ⊢
        rw [hv r, h2]
        exact (Encoding.valid_ascii h1).symm
  · rw [if_neg h]; exact hv b

example : Encoding.validateBatch (utf8 "sixteen letters é".toList) = none := by decide

/-- **C93, disagreement.** The position in the error of the accelerated check is counted from the last whole chunk. -/
theorem C93_position_violated : Encoding.validateBatch (List.replicate 16 97 ++ [255]) = some 0 ∧
    Spec.Encoding.ValidUpTo (List.replicate 16 97 ++ [255]) 16 := by
  refine ⟨by decide, ?_⟩
  obtain ⟨m, h1, _, h3⟩ := (Encoding.invalidAt_spec 17 0 (List.replicate 16 97 ++ [255]) (by simp)).2 16 (by decide)
  rw [Nat.zero_add] at h1
  rw [← h1] at h3
  exact h3

/-! ## C94 -/

/-- **C94 (validity).** Checking bytes succeeds exactly if they are the UTF-8 encoding of a text; the position in the error is the
end of the longest valid beginning. -/
theorem C94_validate (b : List Nat) : (Encoding.validateUtf8 b = none ↔ Spec.Encoding.Valid b) ∧
    ∀ n, Encoding.validateUtf8 b = some n → n < b.length ∧ Spec.Encoding.ValidUpTo b n := by
  refine ⟨⟨(Encoding.invalidAt_spec _ _ b (Nat.le_refl _)).1, Encoding.valid_none _ _ b (Nat.le_refl _)⟩, ?_⟩
  intro n hn
  obtain ⟨m, h1, h2, h3⟩ := (Encoding.invalidAt_spec _ _ b (Nat.le_refl _)).2 n hn
  rw [Nat.zero_add] at h1
  subst h1
  exact ⟨h2, h3⟩

example : Encoding.validateUtf8 [0x41, 0xC3, 0xA9, 0xC3] = some 3 := by decide

/-- **C94 (recovery), partial.** Recovering a text from valid bytes gives that text and no replacements; from others it gives the
characters that are there, with one U+FFFD for each stretch of other bytes, and a count that is at least the number of these
stretches.  Missing: that the count is their number (see `C94_count_violated`). -/
theorem C94_recover_partial (bad : List Nat → Nat) (b : List Nat) :
    (∀ s, utf8 s = b → Encoding.recoverUtf8 bad b = (s, 0)) ∧
    (¬ Spec.Encoding.Valid b → ∃ n, Spec.Encoding.Recovered b (Encoding.recoverUtf8 bad b).1 n ∧ n ≤ (Encoding.recoverUtf8 bad b).2) := by
  refine ⟨?_, ?_⟩
  · intro s hs
    unfold Encoding.recoverUtf8
    rw [Encoding.decode_iff.2 hs]
  · intro hv
    unfold Encoding.recoverUtf8
    cases hd : Stream.decode b with
    | some s => exact absurd ⟨s, Encoding.decode_iff.1 hd⟩ hv
    | none => exact Encoding.lossy_spec b.length b (Nat.le_refl _)

example : Encoding.recoverUtf8 (fun _ => 1) [0x41, 0xFF, 0x42] = (['A', Char.ofNat 0xFFFD, 'B'], 1) := by decide

/-- **C94, disagreement.** A U+FFFD that stands in the text is counted as a replacement, if there is one elsewhere. -/
theorem C94_count_violated : (Encoding.recoverUtf8 (fun _ => 1) (utf8 [Char.ofNat 0xFFFD] ++ [0xFF])).2 = 2 ∧
    Spec.Encoding.Recovered (utf8 [Char.ofNat 0xFFFD] ++ [0xFF]) (Encoding.recoverUtf8 (fun _ => 1) (utf8 [Char.ofNat 0xFFFD] ++ [0xFF])).1 1 := by
  refine ⟨by decide, ?_⟩
  have e : (Encoding.recoverUtf8 (fun _ => 1) (utf8 [Char.ofNat 0xFFFD] ++ [0xFF])).1 = [Char.ofNat 0xFFFD, Char.ofNat 0xFFFD] := by decide
  rw [e]
  have e2 : utf8 [Char.ofNat 0xFFFD] ++ [0xFF] = utf8Enc (Char.ofNat 0xFFFD) ++ ([0xFF] ++ []) := by decide
  rw [e2]
  exact .char (.bad (by simp) (Encoding.decodeOne_none (by decide)) .nil)

/-- **C94 (contents).** A text is accepted exactly if it has no control characters besides tabulators and line ends, and the error
names the first other one and its place. -/
theorem C94_contents (s : Str) : (Encoding.validText s = true ↔ ∀ c ∈ s, Spec.Encoding.Allowed c) ∧
    (Encoding.contentError 0 s = none ↔ ∀ c ∈ s, Spec.Encoding.Allowed c) ∧
    ∀ n c, Encoding.contentError 0 s = some (n, c) → ∃ a b, s = a ++ c :: b ∧ n = size a ∧ ¬ Spec.Encoding.Allowed c ∧ ∀ x ∈ a, Spec.Encoding.Allowed x := by
  have key : ∀ (s : Str) off, (Encoding.contentError off s = none ↔ ∀ c ∈ s, Spec.Encoding.Allowed c) ∧
      ∀ n c, Encoding.contentError off s = some (n, c) → ∃ a b, s = a ++ c :: b ∧ n = off + size a ∧ ¬ Spec.Encoding.Allowed c ∧ ∀ x ∈ a, Spec.Encoding.Allowed x := by
    intro s
    induction s with
    | nil => intro off; simp [Encoding.contentError]
    | cons d s ih =>
      intro off
      rw [Encoding.contentError]
      by_cases hd : Encoding.validChar d = true
      · rw [if_pos hd]
        have ha := (Encoding.validChar_iff d).1 hd
        obtain ⟨h1, h2⟩ := ih (off + d.utf8Size)
        refine ⟨by rw [h1]; simp [ha], ?_⟩
        intro n c hn
        obtain ⟨a, b, h3, h4, h5, h6⟩ := h2 n c hn
        refine ⟨d :: a, b, by rw [h3]; rfl, ?_, h5, ?_⟩
        · simp only [size, List.map_cons, List.sum_cons] at h4 ⊢
          omega
        · intro x hx
          rcases List.mem_cons.1 hx with rfl | hx
          · exact ha
          · exact h6 x hx
      · rw [if_neg hd]
        have ha : ¬ Spec.Encoding.Allowed d := fun h => hd ((Encoding.validChar_iff d).2 h)
        refine ⟨⟨nofun, fun h => absurd (h d (by simp)) ha⟩, ?_⟩
        intro n c hn
        cases hn
        exact ⟨[], s, rfl, rfl, ha, by simp⟩
  refine ⟨?_, (key s 0).1, ?_⟩
  · unfold Encoding.validText
    rw [List.all_eq_true]
    exact ⟨fun h c hc => (Encoding.validChar_iff c).1 (h c hc), fun h c hc => (Encoding.validChar_iff c).2 (h c hc)⟩
  · intro n c hn
    have := (key s 0).2 n c hn
    simpa using this

example : Encoding.validText "a\tb é".toList = true ∧ Encoding.contentError 0 "é\x07x".toList = some (2, '\x07') := by decide

/-- **C94 (the encoding).** Without a byte order mark, valid bytes are taken to be UTF-8 and all others Windows-1252: never
ASCII, since bytes that are all ASCII are valid. -/
theorem C94_detect {b : List Nat} (h : Utf8.detectBom b = none) :
    (Spec.Encoding.Valid b → Encoding.detectEncoding b = .utf8) ∧ (¬ Spec.Encoding.Valid b → Encoding.detectEncoding b = .windows1252) := by
  unfold Encoding.detectEncoding
  rw [h]
  refine ⟨?_, ?_⟩
  · rintro ⟨s, hs⟩
    rw [Encoding.decode_iff.2 hs]
  · intro hv
    cases hd : Stream.decode b with
    | some s => exact absurd ⟨s, Encoding.decode_iff.1 hd⟩ hv
    | none =>
      simp only
      rw [if_pos]
      cases ha : b.any (fun x => 128 ≤ x) with
      | true => rfl
      | false =>
        rw [List.any_eq_false] at ha
        have := (Encoding.valid_ascii (a := b) (b := []) (fun x hx => by have := ha x hx; simp at this; omega)).2 Encoding.valid_nil
        rw [List.append_nil] at this
        exact absurd this hv

example : Encoding.detectEncoding [0x41, 0xE9] = .windows1252 := by decide

/-- **C94 (byte order marks), partial.** The check of byte order marks accepts one for UTF-8 and refuses those for UTF-16 and
UTF-32, and accepts all bytes that do not begin like one.  Missing: texts that begin with a character from U+F000 on (see
`C94_bom_violated`). -/
theorem C94_bom_partial (b : List Nat) : ((∃ r, b = [0xEF, 0xBB, 0xBF] ++ r) → Encoding.bomHandling b = true) ∧
    ((∃ m ∈ [[0xFF, 0xFE], [0xFE, 0xFF], [0xFF, 0xFE, 0, 0], [0, 0, 0xFE, 0xFF]], ∃ r, b = m ++ r) → Encoding.bomHandling b = false) ∧
    ((∀ x, b.head? = some x → x ≠ 0xEF ∧ x ≠ 0xFF ∧ x ≠ 0xFE ∧ x ≠ 0) → Encoding.bomHandling b = true) := by
  refine ⟨?_, ?_, ?_⟩
  · rintro ⟨r, rfl⟩
    rfl
  · rintro ⟨m, hm, r, rfl⟩
    simp only [List.mem_cons, List.not_mem_nil, or_false] at hm
    rcases hm with rfl | rfl | rfl | rfl <;> simp [Encoding.bomHandling]
  · intro h
    unfold Encoding.bomHandling
    cases b with
    | nil => rfl
    | cons x r =>
      obtain ⟨h1, h2, h3, h4⟩ := h x rfl
      simp [h1, h2, h3, h4]

example : Encoding.bomHandling (utf8 "[Script Info]".toList) = true := by decide

/-- **C94, disagreement.** A valid text that begins with a full-width exclamation mark is refused as a broken byte order mark. -/
theorem C94_bom_violated : Encoding.bomHandling (utf8 [Char.ofNat 0xFF01]) = false ∧ Spec.Encoding.Valid (utf8 [Char.ofNat 0xFF01]) ∧
    Utf8.detectBom (utf8 [Char.ofNat 0xFF01]) = none := ⟨by decide, ⟨_, rfl⟩, by decide⟩

end Verif.Props
