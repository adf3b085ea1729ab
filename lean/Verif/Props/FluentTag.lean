import Verif.Model.FluentTag
import Verif.Spec.FluentTag
import Verif.Props.TagCmd
import Verif.Props.Karaoke
/-!
# C158 — chained tag and karaoke operations
-/
namespace Verif.Props.FluentTag
open Verif Verif.Pos Verif.TagCmd Verif.FluentTag
open Verif.Spec.FluentTag
open Verif.Spec.Script (size)
open Verif.Spec.SrtDoc (White)

/-- **C158 (nothing chosen).** Without a position a tag is not inserted, without a range tags are not removed, replaced or put around
text: the operation fails and the text stays as it is, whatever else was chosen. -/
theorem C158_missing (s : Str) (p : Option Nat) (r : Option Range) (tag repl : Str) (x : Option Str) (b : Bool) :
    TagOps.insert ⟨s, r, none⟩ tag b = (.err, s) ∧ TagOps.remove ⟨s, none, p⟩ x = (.err, s) ∧
    TagOps.replace ⟨s, none, p⟩ tag repl b = (.err, s) ∧ TagOps.wrap ⟨s, none, p⟩ tag x = (.err, s) :=
  ⟨rfl, rfl, rfl, rfl⟩

/-- **C158 (what is chosen).** The last position and the last range that were chosen count, in whatever order they were chosen. -/
theorem C158_chosen (s : Str) (p p' : Nat) (r r' : Range) :
    (((tags s).at_ p).inRange r).at_ p' = ((tags s).inRange r).at_ p' ∧
    (((tags s).inRange r).at_ p).inRange r' = ((tags s).at_ p).inRange r' ∧
    ((tags s).at_ p).inRange r = ((tags s).inRange r).at_ p ∧
    (((tags s).at_ p).inRange r).position = some p ∧ (((tags s).at_ p).inRange r).range = some r ∧
    (((tags s).at_ p).inRange r).text = s := ⟨rfl, rfl, rfl, rfl, rfl, rfl⟩

/-- A rewriting of a range between two texts. -/
theorem rewrite_within (f : Str → Outcome Str) (a m b : Str) :
    Within a b (rewrite f (a ++ m ++ b) ⟨size a, size a + size m⟩).2 ∧
    (∀ n, (rewrite f (a ++ m ++ b) ⟨size a, size a + size m⟩).1 = .ok n →
      ∃ m', f m = .ok m' ∧ (rewrite f (a ++ m ++ b) ⟨size a, size a + size m⟩).2 = a ++ m' ++ b ∧ n = size a + size m') ∧
    ((∀ n, (rewrite f (a ++ m ++ b) ⟨size a, size a + size m⟩).1 ≠ .ok n) →
      (rewrite f (a ++ m ++ b) ⟨size a, size a + size m⟩).2 = a ++ m ++ b) := by
  have h := C95_range f a m b
  cases e : f m with
  | ok m' =>
    rw [h.1 m' e]
    refine ⟨⟨m', rfl⟩, ?_, fun hn => absurd rfl (hn _)⟩
    intro n hn
    injection hn with hn
    exact ⟨m', rfl, rfl, hn.symm⟩
  | err =>
    rw [h.2.1 e]
    exact ⟨⟨m, rfl⟩, fun n hn => (by cases hn), fun _ => rfl⟩
  | panic =>
    have : rewrite f (a ++ m ++ b) ⟨size a, size a + size m⟩ = (.panic, a ++ m ++ b) := by
      unfold rewrite
      rw [show (⟨size a, size a + size m⟩ : Range) = ⟨byteLen a, byteLen a + byteLen m⟩ from rfl, Doc.textRange_at]
      simp only [e]
    rw [this]
    exact ⟨⟨m, rfl⟩, fun n hn => (by cases hn), fun _ => rfl⟩

/-- **C158 (the range).** Over a range, whatever the operation — removing, replacing or wrapping tags, generating, splitting, adjusting
or applying karaoke — the text in front of the range and the text behind it stay as they are, and an operation that fails changes
nothing at all. -/
theorem C158_range (a m b : Str) (p : Option Nat) (tag repl : Str) (x : Option Str) (all : Bool) (op : KOp) :
    let r : Range := ⟨size a, size a + size m⟩
    let o : TagOps := ⟨a ++ m ++ b, some r, p⟩
    ∀ res ∈ [o.remove x, o.replace tag repl all, o.wrap tag x, karaoke op (some r) (a ++ m ++ b)],
      Within a b res.2 ∧ ((∀ n, res.1 ≠ .ok n) → res.2 = a ++ m ++ b) := by
  intro r o res hres
  simp only [List.mem_cons, List.not_mem_nil, or_false] at hres
  rcases hres with rfl | rfl | rfl | rfl
  · exact ⟨(rewrite_within _ a m b).1, (rewrite_within _ a m b).2.2⟩
  · exact ⟨(rewrite_within _ a m b).1, (rewrite_within _ a m b).2.2⟩
  · have h := (C95_wrap a m b tag x).1
    show Within a b (wrapTag (a ++ m ++ b) ⟨size a, size a + size m⟩ tag x).2 ∧
      ((∀ n, (wrapTag (a ++ m ++ b) ⟨size a, size a + size m⟩ tag x).1 ≠ .ok n) → _)
    rw [h]
    exact ⟨⟨('{' :: tag ++ ['}']) ++ m ++ ('{' :: closingTag x tag ++ ['}']), by simp⟩, fun hn => absurd rfl (hn _)⟩
  · exact ⟨(rewrite_within _ a m b).1, (rewrite_within _ a m b).2.2⟩

/-- **C158 (wrapping).** Wrapping puts the opening tag in front of the range and behind it the closing tag that was given. -/
theorem C158_wrap (a m b opening closing : Str) (p : Option Nat) :
    (TagOps.wrap ⟨a ++ m ++ b, some ⟨size a, size a + size m⟩, p⟩ opening (some closing)).2 =
      a ++ ("{".toList ++ opening ++ "}".toList) ++ m ++ ("{".toList ++ closing ++ "}".toList) ++ b := by
  show (wrapTag _ _ _ _).2 = _
  rw [(C95_wrap a m b opening (some closing)).1, (C95_wrap a m b opening (some closing)).2 closing rfl]
  simp

/-- **C158 (inserting).** A tag with its backslash goes to the position chosen, in braces unless it is inserted raw, and nothing else
changes; a text without a backslash in front is refused. -/
theorem C158_insert (a b tag tag' : Str) (r : Option Range) (auto : Bool) (ht : Verif.Spec.InfoCmd.Stripped tag tag') :
    (∀ x, tag' = '\\' :: x → (TagOps.insert ⟨a ++ b, r, some (size a)⟩ tag auto).2 =
      a ++ (if auto then "{".toList ++ tag' ++ "}".toList else tag') ++ b) ∧
    (tag'.head? ≠ some '\\' → TagOps.insert ⟨a ++ b, r, some (size a)⟩ tag auto = (.err, a ++ b)) := by
  have h := C95_insert a b tag tag' auto ht
  refine ⟨?_, ?_⟩
  · intro x hx
    show (insertTag _ _ _ _).2 = _
    rw [h.1 x hx]
    cases auto <;> simp
  · intro hx
    exact h.2.1 hx _ _

/-- **C158 (removing), partial.** Removing all tags of a range leaves the text outside the blocks, if the blocks are closed; removing
those of one name leaves the others.  Missing: what `C95_remove_all_partial` and `C95_remove_partial` leave out. -/
theorem C158_remove_partial (a m t b q : Str) (p : Option Nat) :
    (Verif.Spec.TagCmd.Stripped false m t →
      (TagOps.remove ⟨a ++ m ++ b, some ⟨size a, size a + size m⟩, p⟩ none).2 = a ++ t ++ b) ∧
    (Verif.Spec.TagCmd.Removed q false m t →
      (TagOps.remove ⟨a ++ m ++ b, some ⟨size a, size a + size m⟩, p⟩ (some ('\\' :: q))).2 = a ++ t ++ b) := by
  refine ⟨fun h => ?_, fun h => ?_⟩
  · show (rewrite (removeText none true) _ _).2 = _
    rw [(C95_range (removeText none true) a m b).1 t (C95_remove_all_partial h)]
  · show (rewrite (removeText (some ('\\' :: q)) true) _ _).2 = _
    rw [(C95_range (removeText (some ('\\' :: q)) true) a m b).1 t (C95_remove_partial h)]

/-- **C158 (replacing), partial.** With `replace_all` every tag of the range that begins with the pattern has it replaced; with `replace`
nothing happens if there is no such tag.  Missing: what `C95_replace_all_partial` leaves out. -/
theorem C158_replace_partial (a m t b find repl : Str) (p : Option Nat) :
    (Verif.Spec.TagCmd.Replaced find repl m t →
      (TagOps.replace ⟨a ++ m ++ b, some ⟨size a, size a + size m⟩, p⟩ find repl true).2 = a ++ t ++ b) ∧
    (Verif.Spec.TagCmd.Without find m →
      (TagOps.replace ⟨a ++ m ++ b, some ⟨size a, size a + size m⟩, p⟩ find repl false).2 = a ++ m ++ b) := by
  refine ⟨fun h => ?_, fun h => ?_⟩
  · show (rewrite (replaceText find repl true) _ _).2 = _
    rw [(C95_range (replaceText find repl true) a m b).1 t (C95_replace_all_partial h)]
  · show (rewrite (replaceText find repl false) _ _).2 = _
    rw [(C95_range (replaceText find repl false) a m b).1 m (C95_replace_first_partial h).1]

/-- **C158 (replacing once), partial.** With `replace` only the first tag of the range that begins with the pattern is changed.
Missing: what `C95_replace_first_partial` leaves out. -/
theorem C158_replace_first_partial {find repl a b m : Str} (hp : Verif.Spec.TagCmd.Without find m) (p : Option Nat) (x y : List (Str × Str))
    (t : Str × Str) (suffix post : Str) (hb : Verif.Spec.TagCmd.Block (x ++ t :: y)) (hx : ∀ u ∈ x, ¬ find <+: Verif.Spec.TagCmd.tagText u)
    (ht : Verif.Spec.TagCmd.tagText t = find ++ suffix) (hc : Verif.Spec.TagCmd.Closed post) :
    let old := m ++ ('{' :: Verif.Spec.TagCmd.content (x ++ t :: y) ++ '}' :: post)
    (TagOps.replace ⟨a ++ old ++ b, some ⟨size a, size a + size old⟩, p⟩ find repl false).2 =
      a ++ (m ++ ('{' :: (Verif.Spec.TagCmd.content x ++ repl ++ suffix ++ Verif.Spec.TagCmd.content y) ++ '}' :: post)) ++ b := by
  intro old
  show (rewrite (replaceText find repl false) _ _).2 = _
  rw [(C95_range (replaceText find repl false) a old b).1 _ ((C95_replace_first_partial hp).2 x y t suffix post hb hx ht hc)]

/-- The two, and the pieces not changed by them, on one line. -/
example : TagOps.replace ⟨"a {\\b1}x{\\b1} z".toList, some ⟨2, 13⟩, none⟩ "\\b".toList "\\i".toList false =
      (.ok 13, "a {\\i1}x{\\b1} z".toList) ∧
    TagOps.replace ⟨"a {\\b1}x{\\b1} z".toList, some ⟨2, 13⟩, none⟩ "\\b".toList "\\i".toList true =
      (.ok 13, "a {\\i1}x{\\i1} z".toList) := by decide +kernel

/-- **C158 (listing), partial.** The tags listed are those of the range, or of the whole text if none was chosen, in order and with
their arguments, if the blocks are closed and consist of tags.  Missing: the places of the tags (`C95_place_violated`). -/
theorem C158_parse_partial (a m b : Str) (p : Option Nat) {l : List (Nat × (Str × Str))} {n : Nat} (h : Verif.Spec.TagCmd.Lists n m l) :
    ∀ o ∈ [(⟨a ++ m ++ b, some ⟨size a, size a + size m⟩, p⟩ : TagOps), ⟨m, none, p⟩],
      ∃ ps, o.parse = .ok ps ∧ ps.length = l.length ∧ ∀ (i : Nat) (x : Nat × (Str × Str)) (q : Parsed),
        l[i]? = some x → ps[i]? = some q → Verif.Spec.TagCmd.Said x.2 q.tag q.params := by
  have key : ∀ a m b : Str, TagOps.parse ⟨a ++ m ++ b, some ⟨size a, size a + size m⟩, p⟩ = parseTags (size a) m := by
    intro a m b
    unfold TagOps.parse
    dsimp only [Option.getD_some]
    rw [show (⟨size a, size a + size m⟩ : Range) = ⟨byteLen a, byteLen a + byteLen m⟩ from rfl, Doc.textRange_at]
  intro o ho
  simp only [List.mem_cons, List.not_mem_nil, or_false] at ho
  rcases ho with rfl | rfl
  · rw [key]
    exact C95_list_partial h _
  · have e : TagOps.parse ⟨m, none, p⟩ = parseTags 0 m := by
      have := key [] m []
      simp only [List.nil_append, List.append_nil, show size [] = 0 from rfl, Nat.zero_add] at this
      exact this
    rw [e]
    exact C95_list_partial h _

example : TagOps.parse ((tags "a{\\b1}{\\pos(1,2)}".toList).inRange ⟨6, 17⟩) = .ok [⟨"\\pos".toList, 6, ["1".toList, "2".toList]⟩] := by
  decide +kernel

/-- **C158 (karaoke).** Karaoke generated over a range of text without braces: when the blocks are taken out again, all that is not
white space is there as it was. With braces in the range, it fails. -/
theorem C158_generate (a m b : Str) (d : Nat) (kind : Karaoke.Kind) (auto : Bool) :
    (('{' ∈ m ∨ '}' ∈ m) → karaoke (.generate d kind auto) (some ⟨size a, size a + size m⟩) (a ++ m ++ b) = (.err, a ++ m ++ b)) ∧
    ('{' ∉ m → '}' ∉ m → ∃ out t, karaoke (.generate d kind auto) (some ⟨size a, size a + size m⟩) (a ++ m ++ b) =
      (.ok (size a + size out), a ++ out ++ b) ∧ Verif.Spec.Fmt.Stripped out t ∧
        ∀ p : Char → Bool, (∀ c, p c = true ↔ ¬ White c) → t.filter p = m.filter p) := by
  have hr := C95_range (KOp.onText (.generate d kind auto)) a m b
  refine ⟨?_, ?_⟩
  · intro hb
    exact hr.2.1 (by simp only [KOp.onText, C35_refuses kind d auto hb])
  · intro h1 h2
    have e : Karaoke.generate kind d auto m = some (Karaoke.writeFrom kind.tag d true (Karaoke.syllables auto m)) := by
      unfold Karaoke.generate
      rw [if_neg (by simp [h1, h2])]
    obtain ⟨t, h3, h4⟩ := C35_letters kind d auto e
    exact ⟨_, t, hr.1 _ (by simp only [KOp.onText, e]), h3, h4⟩

/-- **C158 (karaoke, exactly), partial.** In a range without two blanks in a row or a blank at its end, every piece of the text gets a
block of the kind and the duration asked for, and the pieces make up the text.  Missing: other blanks (`C35_blanks_violated`). -/
theorem C158_generate_exact_partial (a m b : Str) (d : Nat) (kind : Karaoke.Kind) (auto : Bool) (hb : '{' ∉ m ∧ '}' ∉ m)
    (hs : Verif.Spec.Kara.SingleBlanks m) (hl : ∀ c, m.getLast? = some c → ¬ White c) :
    ∃ pieces : List Str, pieces.flatten = m ∧
      (karaoke (.generate d kind auto) (some ⟨size a, size a + size m⟩) (a ++ m ++ b)).2 =
        a ++ (pieces.map (Verif.Spec.Kara.block kind.tag d ++ ·)).flatten ++ b := by
  obtain ⟨pieces, h1, h2⟩ := C35_generate_partial kind d auto hb hs hl
  refine ⟨pieces, h2, ?_⟩
  show (rewrite (KOp.onText (.generate d kind auto)) (a ++ m ++ b) ⟨size a, size a + size m⟩).2 = _
  rw [(C95_range (KOp.onText (.generate d kind auto)) a m b).1 ((pieces.map (Verif.Spec.Kara.block kind.tag d ++ ·)).flatten) (by simp only [KOp.onText, h1])]

/-- **C158 (adjusting).** Adjusting durations over a range leaves the text outside the blocks as it is. -/
theorem C158_adjust (a m t b : Str) (adj : Karaoke.Adjust) {n : Nat} {s : Str} (ho : Verif.Spec.Kara.Outside m t)
    (h : karaoke (.adjust adj) (some ⟨size a, size a + size m⟩) (a ++ m ++ b) = (.ok n, s)) :
    ∃ m', s = a ++ m' ++ b ∧ Verif.Spec.Kara.Outside m' t := by
  obtain ⟨m', e1, e2, -⟩ := (rewrite_within (KOp.onText (.adjust adj)) a m b).2.1 n (by
    show (karaoke (.adjust adj) (some ⟨size a, size a + size m⟩) (a ++ m ++ b)).1 = _
    rw [h])
  refine ⟨m', ?_, C64_outside adj ho e1⟩
  rw [← e2]
  show s = (karaoke (.adjust adj) (some ⟨size a, size a + size m⟩) (a ++ m ++ b)).2
  rw [h]

/-- **C158, disagreement.** When no range is chosen, karaoke is not generated for the dialogue but for the text of the whole file: the
first thing in it is a timing block, so that it does not begin with a section header any more, whatever the script. -/
theorem C158_whole_violated (s : Str) (h1 : '{' ∉ s) (h2 : '}' ∉ s) (d : Nat) (kind : Karaoke.Kind) (auto : Bool) :
    ∃ n rest, karaoke (.generate d kind auto) none s = (.ok n, "{\\k".toList ++ rest) := by
  have e : Karaoke.generate kind d auto s = some (Karaoke.writeFrom kind.tag d true (Karaoke.syllables auto s)) := by
    unfold Karaoke.generate
    rw [if_neg (by simp [h1, h2])]
  have hr := (C95_range (KOp.onText (.generate d kind auto)) [] s []).1 (Karaoke.writeFrom kind.tag d true (Karaoke.syllables auto s)) (by simp only [KOp.onText, e])
  simp only [List.nil_append, List.append_nil, show size [] = 0 from rfl, Nat.zero_add] at hr
  have hk : ∃ x, kind.tag = 'k' :: x := by cases kind <;> exact ⟨_, rfl⟩
  obtain ⟨x, hx⟩ := hk
  have hne : ∃ y ys, Karaoke.syllables auto s = y :: ys := by
    unfold Karaoke.syllables
    split
    · exact ⟨_, _, rfl⟩
    · split
      · exact ⟨_, _, rfl⟩
      · dsimp only
        split
        · exact ⟨_, _, rfl⟩
        · next h => exact List.exists_cons_of_ne_nil h
  obtain ⟨y, ys, hy⟩ := hne
  have hw : ∃ rest, Karaoke.writeFrom kind.tag d true (Karaoke.syllables auto s) = "{\\k".toList ++ rest := by
    rw [hy, Karaoke.writeFrom]
    simp only [Bool.true_or, if_true, Karaoke.tagText, hx]
    exact ⟨_, by simp; rfl⟩
  obtain ⟨rest, hw⟩ := hw
  refine ⟨size (Karaoke.writeFrom kind.tag d true (Karaoke.syllables auto s)), rest, ?_⟩
  rw [← hw]
  exact hr

/-- A script. -/
def sample : Str := "[Script Info]\nTitle: a\n".toList

/-- **C158, disagreement.** After that the script has lost its sections; and applying a template without a range joins all lines of the
file into one. -/
theorem C158_sections_violated :
    (Parser.parse sample).map (·.sections.length) = some 1 ∧
    (Parser.parse (karaoke (.generate 50 .standard true) none sample).2).map (·.sections.length) = some 0 ∧
    (karaoke (.apply (.equal 50 .standard)) none sample).2 = "{\\k50}[Script {\\k50}Info] {\\k50}Title: {\\k50}a".toList := by
  decide +kernel

end Verif.Props.FluentTag
