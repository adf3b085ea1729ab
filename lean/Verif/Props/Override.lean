import Verif.Lemmas.Override
/-!
# C33, C34 — dialogue text and its override tags
-/
namespace Verif.Props
open Verif Verif.Override Verif.Spec.Ovr

/-! ## C34: the tags of a block -/

/-- **C34.** Every tag reported for a block stands literally in it, at the reported byte position; its name is
read as far as a name goes and its arguments as far as arguments go. -/
theorem C34_located {content : Str} {start : Nat} {o : Out} (h : parseBlock content start = .ok o) :
    ∀ t ∈ o.tags, ∃ a b, content = a ++ '\\' :: t.name ++ t.args ++ b ∧ t.pos = start + byteLen a ∧
      Name t.name ∧ NameStops t.name (t.args ++ b) ∧ Args t.name t.args b :=
  (blockLoop_reads _ _ _ _ (Nat.le_refl _) h).located

/-- **C34.** The tags of a block come in order and do not overlap. -/
theorem C34_ordered {content : Str} {start : Nat} {o : Out} (h : parseBlock content start = .ok o) :
    o.tags.Pairwise (fun t u => t.pos + 1 + byteLen t.name + byteLen t.args ≤ u.pos) :=
  (blockLoop_reads _ _ _ _ (Nat.le_refl _) h).ordered

/-- **C34.** No backslash is overlooked: each starts a reported tag, or is reported as an empty override, or
directly follows one that is, or lies inside the arguments of a `\t`. -/
theorem C34_complete {content : Str} {start : Nat} {o : Out} (h : parseBlock content start = .ok o) (a b : Str)
    (he : content = a ++ '\\' :: b) :
    (∃ t ∈ o.tags, t.pos = start + byteLen a) ∨ (∃ d ∈ o.diags, d.offset = start + byteLen a) ∨
    (∃ d ∈ o.diags, start + byteLen a = d.offset + 1) ∨
    (∃ t ∈ o.tags, t.name = ['t'] ∧ t.pos + 2 < start + byteLen a ∧ start + byteLen a < t.pos + 2 + byteLen t.args) := by
  rcases (blockLoop_reads _ _ _ _ (Nat.le_refl _) h).complete a b he with h | h | ⟨d, hd, e⟩ | h
  · exact .inl h
  · obtain ⟨d, hd, e⟩ := List.mem_map.1 h
    exact .inr (.inl ⟨d, hd, e⟩)
  · obtain ⟨d', hd', e'⟩ := List.mem_map.1 hd
    exact .inr (.inr (.inl ⟨d', hd', by rw [e, e']⟩))
  · exact .inr (.inr (.inr h))

/-- **C34, in part.** The parser returns for every block in which no backslash is directly followed by a
character of several bytes.  Missing: the blocks with such a backslash, see `C34_total_violated`. -/
theorem C34_total_partial (content : Str) (start : Nat)
    (h : ∀ a c b, content = a ++ '\\' :: c :: b → c.utf8Size = 1) : ∃ o, parseBlock content start = .ok o :=
  blockLoop_total _ _ _ h

/-- **C34 does not hold for every block:** `\é` crashes the parser. -/
theorem C34_total_violated : ¬ ∀ content start, parseBlock content start ≠ .panic := by
  intro h
  exact h "\\é".toList 0 (by decide)

example : parseBlock "\\b1\\t(0,1,\\fs20)x\\fnArial".toList 1 =
    .ok ⟨[⟨"b".toList, "1".toList, 1⟩, ⟨"t".toList, "(0,1,\\fs20)".toList, 4⟩, ⟨"fn".toList, "Arial".toList, 18⟩], []⟩ := by
  decide

/-- **C34 for a whole text.** Whatever the text, every tag reported for it stands literally in it at the reported
byte position, and the tags come in order without overlap. -/
theorem C34_text {text : Str} {a : Analysis} (h : analyze text = .ok a) :
    (∀ t ∈ a.tags, ∃ x y, text = x ++ '\\' :: t.name ++ t.args ++ y ∧ t.pos = byteLen x) ∧
    a.tags.Pairwise (fun t u => t.pos + 1 + byteLen t.name + byteLen t.args ≤ u.pos) := by
  have := textLoop_located _ _ _ _ _ h
  simpa using this

example : analyze "é{\\b1}x{\\i0}".toList =
    .ok ⟨"éx".toList, [⟨"b".toList, "1".toList, 3⟩, ⟨"i".toList, "0".toList, 9⟩], []⟩ := by
  decide

/-- **C34 fails for a block left open:** its last byte is not read, so `{\b1` is reported as `\b` without
argument. -/
theorem C34_unclosed_violated :
    analyze "{\\b1".toList = .ok ⟨[], [⟨"b".toList, [], 1⟩], []⟩ ∧ ¬ Args "b".toList [] "1".toList := by
  refine ⟨by decide, ?_⟩
  rintro (⟨h, _⟩ | ⟨_, _, h | h⟩) <;> revert h <;> decide

/-! ## C33: the visible text -/

/-- **C33, in part.** The plain text is the visible text, for every text whose blocks are closed (and nested at
most 100 deep) and that does not end in a lone backslash.  Missing: the other texts, see below. -/
theorem C33_visible_partial {text shown : Str} {a : Analysis} (hv : Visible false text shown)
    (h : analyze text = .ok a) : a.plain = shown :=
  textLoop_visible hv _ _ _ (Nat.le_refl _) h

/-- **C33, in part.** For such a text the analysis succeeds, if no backslash is directly followed by a character of
several bytes.  Missing: see the violations below. -/
theorem C33_total_partial {text shown : Str} (hv : Visible false text shown)
    (h : ∀ a c b, text = a ++ '\\' :: c :: b → c.utf8Size = 1) : ∃ a, analyze text = .ok a ∧ a.plain = shown := by
  obtain ⟨a, ha⟩ := textLoop_total hv text.length 0 (Nat.le_refl _) h
  exact ⟨a, ha, C33_visible_partial hv ha⟩

private theorem mode_example (d : Char) (hd : d = '0' ∨ d = '1') (m : Bool) : ModeAfter ['\\', 'p', d] m (d == '1') := by
  have h := drawLoop_spec 3 ['\\', 'p', d] m (Nat.le_refl _)
  rcases hd with rfl | rfl <;> cases m <;> exact h

/-- A text with a block that switches drawing on, one that switches it off, and escapes. -/
example : Visible false "a{\\p1}m{\\p0}\\Nb\\hc".toList "a\nb\u00A0c".toList :=
  .char _ 'a' _ _ (by decide) (.block _ true "\\p1".toList _ _
    (.other _ _ _ (by decide) (by decide) (.other _ _ _ (by decide) (by decide) (.other _ _ _ (by decide) (by decide) .done)))
    (mode_example '1' (.inr rfl) _)
    (.char _ 'm' _ _ (by decide) (.block _ false "\\p0".toList _ _
      (.other _ _ _ (by decide) (by decide) (.other _ _ _ (by decide) (by decide) (.other _ _ _ (by decide) (by decide) .done)))
      (mode_example '0' (.inl rfl) _)
      (.brk _ 'N' _ _ (.inr rfl) (.char _ 'b' _ _ (by decide) (.space _ _ _ (.char _ 'c' _ _ (by decide) (.nil _))))))))

/-- **C33 does not hold for every text:** a text ending in `{` crashes the analysis, and so does an unclosed block
ending in a character of several bytes, and a block with `\é`. -/
theorem C33_total_violated :
    analyze "a{".toList = .panic ∧ analyze "{bé".toList = .panic ∧ analyze "{\\é}".toList = .panic := by
  decide

/-- **C33 does not hold for every text:** a backslash at the end is shown nowhere, although a backslash followed by
an ordinary character is shown. -/
theorem C33_lone_backslash_violated :
    analyze "a\\".toList = .ok ⟨"a".toList, [], []⟩ ∧ analyze "a\\ ".toList = .ok ⟨"a\\ ".toList, [], []⟩ := by
  decide

set_option maxRecDepth 20000 in
/-- **C33:** a text is rejected when its braces are nested more than 100 deep. -/
theorem C33_nesting : analyze (List.replicate 101 '{') = .err := by decide

end Verif.Props
