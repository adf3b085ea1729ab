import Verif.Lemmas.TagCmd
/-! Property C95: the commands on override tags. -/
namespace Verif.Props
open Verif
open Verif.TagCmd
open Verif.Spec.TagCmd
open Verif.Spec.Script (size)
open Verif.Spec.Tokenizer (Balanced)
open Verif.Spec.InfoCmd (Stripped)

/-- Two tags, for the examples. -/
private theorem two (x y : Char) (hx : x = '0' ∨ x = '1') (hy : y = '0' ∨ y = '1') : Block [(['b'], [x]), (['i'], [y])] := by
  rcases hx with rfl | rfl <;> rcases hy with rfl | rfl
  all_goals
    refine ⟨⟨⟨'b', [], rfl, .inl (by unfold Spec.Ovr.Letter; decide), by simp⟩, nofun, by decide, .inr (.inr ?_), .inr ⟨.inl (by decide), by decide⟩,
      ⟨'i', [], rfl, .inl (by unfold Spec.Ovr.Letter; decide), by simp⟩, nofun, by decide, .inr (.inr ?_), .inr ⟨.inl (by decide), by decide⟩, trivial⟩, ?_⟩
    · intro c hc
      cases hc
      unfold Spec.Ovr.Letter; decide
    · intro c hc
      cases hc
      unfold Spec.Ovr.Letter; decide
    · show Balanced ['\\', 'b', _, '\\', 'i', _]
      iterate 6 refine .char (by decide) (by decide) ?_
      exact .nil

/-- **C95 (inserting).** A tag that begins with a backslash is put, in braces if wanted, at its place, and the changed range ends
behind it; any other text, and a place beyond the end, is refused, and the document stays as it is. -/
theorem C95_insert (a b tag tag' : Str) (auto : Bool) (ht : Stripped tag tag') :
    (∀ x, tag' = '\\' :: x → insertTag (a ++ b) (size a) tag auto =
      (.ok (size a + size (if auto then '{' :: tag' ++ ['}'] else tag')), a ++ (if auto then '{' :: tag' ++ ['}'] else tag') ++ b)) ∧
    (tag'.head? ≠ some '\\' → ∀ s pos, insertTag s pos tag auto = (.err, s)) ∧
    (∀ s pos, size s < pos → insertTag s pos tag auto = (.err, s)) := by
  have e : trim tag = tag' := Handlers.stripped_eq ht
  refine ⟨?_, ?_, ?_⟩
  · intro x hx
    have hf : formatTag tag auto = .ok (if auto then '{' :: tag' ++ ['}'] else tag') := by
      unfold formatTag
      rw [e, hx, if_neg (by simp), if_neg (by simp)]
      cases auto <;> rfl
    unfold insertTag
    rw [hf]
    simp only
    rw [show size a = byteLen a from rfl, Doc.insertRaw_at]
    rfl
  · intro h s pos
    unfold insertTag formatTag
    rw [e, if_pos h]
  · intro s pos h
    unfold insertTag formatTag
    rw [e]
    have hi : ∀ f, Doc.insertRaw s pos f = (.err, s) := fun f => by unfold Doc.insertRaw; rw [if_pos (show pos > byteLen s from h)]
    by_cases h1 : tag'.head? ≠ some '\\'
    · rw [if_pos h1]
    · rw [if_neg h1]
      by_cases h2 : tag'.head? = some '{' ∧ tag'.getLast? = some '}'
      · rw [if_pos h2]; simp only [hi]
      · rw [if_neg h2]
        cases auto
        · rw [if_neg (by simp)]; simp only [hi]
        · rw [if_pos rfl]; simp only [hi]

example : insertTag "Hé llo".toList 3 " \\b1 ".toList true = (.ok 8, "Hé{\\b1} llo".toList) := by decide

/-- **C95, disagreement.** A tag that is already in braces is refused, although the code has a branch for it. -/
theorem C95_braces_violated : insertTag "ab".toList 1 "{\\b1}".toList true = (.err, "ab".toList) := by decide

/-- **C95 (the range).** Removing and replacing change the text of the range as the removal or replacement in that text says, and
nothing else; the changed range ends behind the new text. If it cannot be done the document stays as it is. -/
theorem C95_range (f : Str → Outcome Str) (a m b : Str) :
    (∀ m', f m = .ok m' → rewrite f (a ++ m ++ b) ⟨size a, size a + size m⟩ = (.ok (size a + size m'), a ++ m' ++ b)) ∧
    (f m = .err → rewrite f (a ++ m ++ b) ⟨size a, size a + size m⟩ = (.err, a ++ m ++ b)) ∧
    (∀ s r, size s < r.fin → rewrite f s r = (.err, s)) := by
  have ht := Doc.textRange_at a m b
  refine ⟨?_, ?_, ?_⟩
  · intro m' hm
    unfold rewrite
    rw [show (⟨size a, size a + size m⟩ : Pos.Range) = ⟨byteLen a, byteLen a + byteLen m⟩ from rfl, ht]
    simp only [hm]
    rw [Doc.replaceRaw_at]
    rfl
  · intro hm
    unfold rewrite
    rw [show (⟨size a, size a + size m⟩ : Pos.Range) = ⟨byteLen a, byteLen a + byteLen m⟩ from rfl, ht]
    simp only [hm]
  · intro s r h
    unfold rewrite Doc.textRange
    rw [if_pos (show r.fin > byteLen s from h)]

example : rewrite (removeText none true) "x{\\b1}y{\\i1}z".toList ⟨1, 7⟩ = (.ok 2, "xy{\\i1}z".toList) := by decide

/-- **C95 (removing all tags), partial.** In a text whose blocks are closed, removing all tags leaves the text outside the blocks.
Missing: blocks that are not closed (see `C95_unclosed_violated`). -/
theorem C95_remove_all_partial {keep : Bool} {s t : Str} (h : Stripped keep s t) : removeText none (!keep) s = .ok t :=
  removeLoop_all h _ (Nat.le_refl _)

example : Stripped false "a{\\b1{x}}b".toList "ab".toList := by
  refine .char (by decide) ?_
  refine .block (x := "\\b1{x}".toList) (t := ['b']) ?_ (.char (by decide) .nil)
  refine .char (by decide) (by decide) (.char (by decide) (by decide) (.char (by decide) (by decide) ?_))
  exact .block (x := ['x']) (s := []) (.char (by decide) (by decide) .nil) .nil

/-- **C95 (removing some tags), partial.** In a text whose blocks are closed and consist of tags, removing the tags with a pattern
`\q` leaves the text and, in order, all tags whose name does not begin with `q`; blocks without tags go, unless they are to be kept.

Missing: blocks with text in front of the first tag or behind a tag with parentheses, which loses that text (see
`C95_comment_violated`); patterns without a backslash (see `C95_pattern_violated`); only the named tag (see `C95_prefix_violated`). -/
theorem C95_remove_partial {q : Str} {keep : Bool} {s t : Str} (h : Removed q keep s t) :
    removeText (some ('\\' :: q)) (!keep) s = .ok t := removeLoop_some h _ (Nat.le_refl _)

example : Removed ['b'] false "x{\\b1\\i0}y".toList "x{\\i0}y".toList :=
  .char (by decide) (.block (t := ['y']) (two '1' '0' (.inr rfl) (.inl rfl)) (.char (by decide) .nil))

/-- **C95 (replacing all), partial.** In a text whose blocks are closed and consist of tags, every tag that begins with the
pattern has it replaced; everything else stays.  Missing: as for `C95_remove_partial`. -/
theorem C95_replace_all_partial {f r : Str} {s t : Str} (h : Replaced f r s t) : replaceText f r true s = .ok t :=
  replaceLoop_all h _ _ (Nat.le_refl _)

example : Replaced "\\b".toList "\\i".toList "x{\\b1\\i0}".toList "x{\\i1\\i0}".toList :=
  .char (by decide) (.block (y := "\\i1\\i0".toList) (two '1' '0' (.inr rfl) (.inl rfl))
    (.hit ['1'] (by decide) (.miss (by decide) .nil)) .nil)

/-- **C95 (replacing the first), partial.** Without `all` only the first tag that begins with the pattern is changed; if there is
none, nothing is.  Missing: as for `C95_remove_partial`. -/
theorem C95_replace_first_partial {f r : Str} {pre : Str} (hp : Without f pre) :
    replaceText f r false pre = .ok pre ∧
    ∀ (x y : List (Str × Str)) (t : Str × Str) (suffix post : Str), Block (x ++ t :: y) → (∀ u ∈ x, ¬ f <+: tagText u) →
      tagText t = f ++ suffix → Closed post →
      replaceText f r false (pre ++ ('{' :: content (x ++ t :: y) ++ '}' :: post)) =
        .ok (pre ++ ('{' :: (content x ++ r ++ suffix ++ content y) ++ '}' :: post)) := by
  refine ⟨?_, ?_⟩
  · obtain ⟨k, _, h⟩ := replaceLoop_without (r := r) (all := false) hp [] (pre.length) (by simp)
    unfold replaceText
    rw [List.append_nil] at h
    rw [h]
    cases k <;> simp [replaceLoop, before]
  · intro x y t suffix post hb hx ht hpost
    obtain ⟨k, hk, h⟩ := replaceLoop_without (r := r) (all := false) hp ('{' :: content (x ++ t :: y) ++ '}' :: post)
      _ (Nat.le_refl _)
    unfold replaceText
    rw [h]
    cases k with
    | zero => simp at hk
    | succ k =>
      rw [List.cons_append, replaceLoop, if_pos rfl, readBlock_closed hb.braces, if_pos rfl]
      have e : swapBlock f r false 0 (content (x ++ t :: y)) = .ok (content x ++ r ++ suffix ++ content y, 1) := by
        unfold swapBlock
        rw [if_neg (by simp), parse_tags hb.tags]
        simp only
        rw [swapTags_first x y 0 hx ht]
      simp only [e]
      rw [replaceLoop_done hpost k 1 (by omega) (by simp at hk; omega)]
      simp [before]

example : replaceText "\\b".toList "\\i".toList false "{\\b1}x{\\b0}".toList = .ok "{\\i1}x{\\b0}".toList := by decide

/-- **C95 (listing), partial.** In a text whose blocks are closed and consist of tags, exactly these tags are reported, in order,
with their arguments.  Missing: their places (see `C95_place_violated`). -/
theorem C95_list_partial {s : Str} {l : List (Nat × (Str × Str))} {n : Nat} (h : Lists n s l) (start : Nat) :
    ∃ ps, parseTags start s = .ok ps ∧ ps.length = l.length ∧ ∀ (i : Nat) (x : Nat × (Str × Str)) (p : Parsed),
      l[i]? = some x → ps[i]? = some p → Said x.2 p.tag p.params := parseLoop_lists h start _ 0 (Nat.le_refl _)

example : parseTags 0 "x{\\pos( 1,2 )\\b1}".toList = .ok [⟨"\\pos".toList, 1, [['1'], ['2']]⟩, ⟨"\\b1".toList, 12, []⟩] := by decide

/-- **C95, disagreement.** The place of a tag is one byte too small, and further off behind characters of several bytes. -/
theorem C95_place_violated : Lists 0 "é{\\b1\\i0}".toList [(3, (['b'], ['1'])), (6, (['i'], ['0']))] ∧
    parseTags 0 "é{\\b1\\i0}".toList = .ok [⟨"\\b1".toList, 1, []⟩, ⟨"\\i0".toList, 4, []⟩] :=
  ⟨.char (by decide) (.block (ts := [(['b'], ['1']), (['i'], ['0'])]) (two '1' '0' (.inr rfl) (.inl rfl)) .nil), by decide⟩

/-- **C95, disagreement.** Removing bold also removes borders and blurs, whose names begin with the same letter. -/
theorem C95_prefix_violated : removeText (some "\\b".toList) true "{\\b1\\bord2\\blur3}x".toList = .ok "x".toList := by decide

/-- **C95, disagreement.** Removing or replacing tags loses the other text in their block. -/
theorem C95_comment_violated : removeText (some "\\b".toList) true "{note}{see\\i1}x".toList = .ok "{\\i1}x".toList ∧
    replaceText "\\b".toList "\\i".toList true "{note}x".toList = .ok "{}x".toList := by decide

/-- **C95, disagreement.** A pattern without a backslash loses its first character: `b` removes every tag.  An empty one, or one
that begins with a character of several bytes, panics. -/
theorem C95_pattern_violated : removeText (some "b".toList) true "{\\i1\\fs20}x".toList = .ok "x".toList ∧
    removeText (some []) true "{\\i1}".toList = .panic ∧ removeText (some "é".toList) true "{\\i1}".toList = .panic := by decide

/-- **C95, disagreement.** Where a block is not closed, replacing loses all text from there on; so does removing. -/
theorem C95_unclosed_violated : replaceText "\\b".toList "\\i".toList true "a {b c".toList = .ok "a {".toList ∧
    removeText none true "a {b c".toList = .ok "a ".toList := by decide

/-- **C95 (wrapping).** Wrapping puts the opening tag in front of the range and the closing tag behind it, in braces, and the
changed range ends behind the closing tag. -/
theorem C95_wrap (a m b opening : Str) (closing : Option Str) :
    wrapTag (a ++ m ++ b) ⟨size a, size a + size m⟩ opening closing =
      (.ok (size (a ++ ('{' :: opening ++ ['}']) ++ m ++ ('{' :: closingTag closing opening ++ ['}']))),
        a ++ ('{' :: opening ++ ['}']) ++ m ++ ('{' :: closingTag closing opening ++ ['}']) ++ b) ∧
    (∀ c, closing = some c → closingTag closing opening = c) := by
  refine ⟨?_, ?_⟩
  · have e1 : byteLen a + byteLen m = byteLen (a ++ m) := (byteLen_append a m).symm
    unfold wrapTag
    simp only [show ∀ s, size s = byteLen s from fun _ => rfl]
    rw [e1, Doc.insertRaw_at]
    simp only
    rw [show a ++ m ++ ('{' :: closingTag closing opening ++ ['}']) ++ b = a ++ (m ++ ('{' :: closingTag closing opening ++ ['}']) ++ b) by simp,
      Doc.insertRaw_at]
    simp only [byteLen_append, Prod.mk.injEq, Outcome.ok.injEq]
    refine ⟨by omega, by simp⟩
  · rintro c rfl; rfl

example : wrapTag "a bc d".toList ⟨2, 4⟩ "\\i1".toList none = (.ok 14, "a {\\i1}bc{\\i0} d".toList) := by decide

/-- **C95 (closing tags), partial.** The closing tag chosen for `\b`, `\i`, `\u` and `\s` with a number is the same tag with 0; for
a primary colour it is `\c`.  Missing: other tags that begin with the same letter (see `C95_closing_violated`). -/
theorem C95_closing_partial (c : Char) (hc : c = 'b' ∨ c = 'i' ∨ c = 'u' ∨ c = 's') (n x : Str) :
    closingTag none ('\\' :: c :: n) = ['\\', c, '0'] ∧ closingTag none ("\\c&".toList ++ x) = "\\c".toList ∧
    closingTag none ("\\1c&".toList ++ x) = "\\c".toList := by
  refine ⟨?_, ?_, ?_⟩
  · rcases hc with rfl | rfl | rfl | rfl <;> simp [closingTag]
  · simp [closingTag]
  · simp [closingTag]

example : closingTag none "\\u1".toList = "\\u0".toList := by decide

/-- **C95, disagreement.** A border is closed by ending bold, a shadow by ending a strike-out. -/
theorem C95_closing_violated : closingTag none "\\bord2".toList = "\\b0".toList ∧ closingTag none "\\shad1".toList = "\\s0".toList := by decide

end Verif.Props
