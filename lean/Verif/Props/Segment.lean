import Verif.Lemmas.SegTags
import Verif.Lemmas.SegTagged
import Verif.Props.Override
/-!
# C51, C52, C81: styled segments
-/
namespace Verif.Props.Segment
open Verif Verif.Segment
open Verif.Spec.Segment
open Verif.Spec.Ovr (Visible DrawTag Letter)

/-! ## C52 -/

/-- **C52.**  Splitting a block cuts it at exactly those backslashes before which the parentheses are level; every piece
is kept, in order and unchanged, and only empty pieces are left out. -/
theorem C52_split (content : Str) : ∃ pieces, Cut content pieces ∧ splitTags content = pieces.filter (· ≠ []) :=
  splitTags_cut content

/-- **C52.**  A block written as a sequence of tags is split into these tags. -/
theorem C52_tags (ps : List Str) (h : ∀ p ∈ ps, Written p ∧ p ≠ []) : splitTags (tagsText ps) = ps :=
  splitTags_tagsText ps h

example : splitTags "\\b1\\t(0,100,\\fs20\\c&HFF&)\\i1".toList =
    ["b1".toList, "t(0,100,\\fs20\\c&HFF&)".toList, "i1".toList] := by decide

example : ∀ p ∈ ["b1".toList, "pos(1,2)".toList], Written p ∧ p ≠ [] := by
  intro p hp
  simp only [List.mem_cons, List.not_mem_nil, or_false] at hp
  rcases hp with rfl | rfl <;> (unfold Written Level; decide)

/-! ## C51 -/

/-- What one block does to the tags in force. -/
abbrev BlockStep (f32 : Str → Option Rat) (block : Str) (t u : Tags) : Prop := processBlock f32 block t = .ok u

/-- **C51.**  If the text has tags, every segment stands for a stretch of the text without blocks and gives the bytes it
occupies, and the segments together give the text between the blocks. -/
theorem C51_stretches {f32 : Str → Option Rat} {text : Str} {out : List Seg} (ht : ∀ a, Override.analyze text = .ok a → a.tags ≠ [])
    (h : segment f32 text = .ok out) :
    (∀ g ∈ out, Stretch (BlockStep f32) Tags.default text g) ∧
    ∃ blocks t, Raw text blocks t ∧ out.flatMap (·.text) = t := by
  unfold segment at h
  cases ha : Override.analyze text with
  | err => rw [ha] at h; cases h
  | panic => rw [ha] at h; cases h
  | ok a =>
    rw [ha] at h
    simp only at h
    rw [if_neg (ht a ha)] at h
    obtain ⟨h1, bs, t, h2, h3⟩ := segLoop_spec f32 text Tags.default text.length [] [] Tags.default text out [] [] [] []
      (Nat.le_refl _) rfl (.nil) (.nil) (.none _) (by intro g hg; cases hg) h
    exact ⟨h1, bs, t, h2, by simpa using h3⟩

/-- **C51.**  The same of every text in which a tag stands, read off the text alone: the segments together give the
text between its blocks. -/
theorem C51_tagged {f32 : Str → Option Rat} {text t : Str} {blocks : List Str} {out : List Seg} (hr : Raw text blocks t)
    (ht : Tagged blocks) (h : segment f32 text = .ok out) :
    (∀ g ∈ out, Stretch (BlockStep f32) Tags.default text g) ∧ out.flatMap (·.text) = t := by
  obtain ⟨h1, bs, t', h2, h3⟩ := C51_stretches (fun _ ha => textLoop_tagged hr _ _ _ _ (Nat.le_refl _) ht ha) h
  exact ⟨h1, by rw [h3]; exact (raw_unique h2 hr).2⟩

/-- A text with an escape and two blocks. -/
example : Raw "é{\\b1}x\\Ny{}".toList ["\\b1".toList, []] "éx\ny".toList ∧ Tagged ["\\b1".toList, []] := by
  refine ⟨.char 'é' _ _ _ (by decide) (.block "\\b1".toList _ _ _ ?_ (.char 'x' _ _ _ (by decide)
    (.brk 'N' _ _ _ (.inr rfl) (.char 'y' _ _ _ (by decide) (.block [] _ _ _ .done .nil))))),
    "\\b1".toList, by simp, [], 'b', ['1'], rfl, by simp, .inl (by unfold Letter; decide)⟩
  exact .other _ _ _ (by decide) (by decide) (.other _ _ _ (by decide) (by decide) (.other _ _ _ (by decide) (by decide) .done))

/-- The blocks of a text, and the text around them, are determined. -/
theorem C51_unique {s : Str} {bs bs' : List Str} {t t' : Str} (h : Raw s bs t) (h' : Raw s bs' t') : bs = bs' ∧ t = t' :=
  raw_unique h h'

/-- **C51.**  Segments of a text in which no drawing tag stands show what the text shows.  `_partial`: for texts whose
segments can be computed, see `C51_total_violated`; with drawings, and with a backslash at the end, the claim fails, see
`C51_drawing_violated` and `C51_backslash_violated`. -/
theorem C51_visible_partial {f32 : Str → Option Rat} {text shown : Str} {out : List Seg} (hv : Visible false text shown)
    (hd : ∀ a n, ¬ DrawTag text a n) (h : segment f32 text = .ok out) : out.flatMap (·.text) = shown := by
  by_cases ht : ∀ a, Override.analyze text = .ok a → a.tags ≠ []
  · obtain ⟨_, bs, t, h1, h2⟩ := C51_stretches ht h
    obtain ⟨bs', h3⟩ := visible_raw hv rfl hd
    rw [h2]
    exact (raw_unique h1 h3).2
  · have : ∃ a, Override.analyze text = .ok a ∧ a.tags = [] := by
      refine Classical.byContradiction (fun hn => ht (fun a ha e => hn ⟨a, ha, e⟩))
    obtain ⟨a, ha, he⟩ := this
    unfold segment at h
    rw [ha] at h
    simp only at h
    rw [if_pos he] at h
    injection h with h
    rw [← h]
    simp only [List.flatMap_cons, List.flatMap_nil, List.append_nil]
    exact Verif.Props.C33_visible_partial hv ha

/-- A text with tags, an escape and characters of several bytes. -/
example : (segment (fun _ => none) "é{\\b1}x\\Ny{\\i1}z".toList) =
    .ok [⟨"é".toList, 0, 2, ⟨[], []⟩⟩, ⟨"x\ny".toList, 7, 11, ⟨[(.bold, .flag true)], []⟩⟩,
      ⟨"z".toList, 16, 17, ⟨[(.italic, .flag true), (.bold, .flag true)], []⟩⟩] := by decide

/-- **C51, violated.**  Drawing commands are text of a segment: this event shows `x` only. -/
theorem C51_drawing_violated :
    ∃ text shown out, Override.analyze text = .ok out ∧ out.plain = shown ∧
      ∃ segs, segment (fun _ => none) text = .ok segs ∧ segs.flatMap (·.text) ≠ shown :=
  ⟨"{\\p1}m 0 0{\\p0}x".toList, "x".toList, _, rfl, by decide, _, rfl, by decide⟩

/-- **C51, violated.**  A backslash at the end is shown if the text has a tag, and is not shown if it has none. -/
theorem C51_backslash_violated :
    (segment (fun _ => none) "{\\b1}a\\".toList = .ok [⟨"a\\".toList, 5, 7, ⟨[(.bold, .flag true)], []⟩⟩]) ∧
    segment (fun _ => none) "a\\".toList = .ok [⟨"a".toList, 0, 2, ⟨[], []⟩⟩] := by decide

/-- **C51, violated.**  Some texts have no segments at all: a block with the two bytes of a colour tag's name inside a
character, and a fade whose times are out of order. -/
theorem C51_total_violated :
    segment (fun _ => none) "{\\1é}x".toList = .panic ∧
    segment (fun _ => none) "{\\fade(0,0,0,500,100,600,700)}x".toList = .panic := by decide

/-! ## C81 -/

/-- **C81.**  A block of well-written tags: the last tag that sets an attribute decides its value, all other attributes
keep theirs. -/
theorem C81_block {f32 : Str → Option Rat} (l : List Entry) (h : Good f32 l) (t : Tags) :
    ∃ u, processBlock f32 (blockText l) t = .ok u ∧ u.transforms = t.transforms ∧
      ∀ f, valueOf u f = (lastSet f (l.map (fun e => (e.field, e.val)))).or (valueOf t f) := block_ok l h t

/-- **C81.**  Each segment of a text with tags carries exactly what the blocks before it set, the last tag deciding.
`_partial`: if these blocks are made of the tags of `Sets` (plain ones: no `\t`, no `\r`, no vector clip); other tags that are in use
are treated wrongly, see the violations below. -/
theorem C81_segment_partial {f32 : Str → Option Rat} {text : Str} {out : List Seg} (ht : ∀ a, Override.analyze text = .ok a → a.tags ≠ [])
    (h : segment f32 text = .ok out) {g : Seg} (hg : g ∈ out) :
    ∃ x y z blocks before, text = x ++ y ++ z ∧ bytes x = g.start ∧ Raw x blocks before ∧ Raw y [] g.text ∧
      ∀ ls : List (List Entry), (∀ l ∈ ls, Good f32 l) → blocks = ls.map blockText →
        g.tags.transforms = [] ∧ ∀ f, valueOf g.tags f = lastSet f (ls.flatten.map (fun e => (e.field, e.val))) := by
  obtain ⟨x, y, z, bs, before, h1, h2, _, h3, h4, h5, _⟩ := (C51_stretches ht h).1 g hg
  refine ⟨x, y, z, bs, before, h1, h2, h3, h4, fun ls hl hb => ?_⟩
  subst hb
  obtain ⟨h6, h7⟩ := after_ok ls hl h5
  refine ⟨h6, fun f => ?_⟩
  rw [h7]
  have : valueOf Tags.default f = none := rfl
  rw [this, Option.or_none]

/-- **C81.**  The same of a text made of well-written blocks, read off the text alone: if its blocks `ls` are made of the
tags of `Sets` and one of them has a tag, each segment carries exactly what the blocks before it set.  `_partial`: as
above. -/
theorem C81_tagged_partial {f32 : Str → Option Rat} {text t : Str} {ls : List (List Entry)} {out : List Seg}
    (hr : Raw text (ls.map blockText) t) (hl : ∀ l ∈ ls, Good f32 l) (ht : Tagged (ls.map blockText))
    (h : segment f32 text = .ok out) {g : Seg} (hg : g ∈ out) :
    ∃ x y z before n, text = x ++ y ++ z ∧ bytes x = g.start ∧ bytes (x ++ y) = g.stop ∧
      Raw x ((ls.take n).map blockText) before ∧ Raw y [] g.text ∧
      g.tags.transforms = [] ∧ ∀ f, valueOf g.tags f = lastSet f ((ls.take n).flatten.map (fun e => (e.field, e.val))) := by
  obtain ⟨x, y, z, bs, before, h1, h2, h2', h3, h4, h5, bs', after, h6⟩ := (C51_tagged hr ht h).1 g hg
  have e := (raw_unique hr h6).1
  have eb : bs = (ls.take bs.length).map blockText := by
    rw [List.map_take, e, List.take_left']
    rfl
  rw [eb] at h5 h3
  obtain ⟨h7, h8⟩ := after_ok (ls.take bs.length) (fun l hm => hl l (List.mem_of_mem_take hm)) h5
  refine ⟨x, y, z, before, bs.length, h1, h2, h2', h3, h4, h7, fun f => ?_⟩
  rw [h8]
  have : valueOf Tags.default f = none := rfl
  rw [this, Option.or_none]

/-- **C81.**  A text in which no tag is found is one segment without overrides. -/
theorem C81_no_tags {f32 : Str → Option Rat} {text : Str} {a : Override.Analysis} (ha : Override.analyze text = .ok a) (h : a.tags = []) :
    segment f32 text = .ok [⟨a.plain, 0, bytes text, ⟨[], []⟩⟩] := by
  unfold segment
  rw [ha, bytes_eq]
  simp only
  rw [if_pos h]
  rfl

/-- **C81.**  After `\r` nothing set before counts any more. -/
theorem C81_reset {f32 : Str → Option Rat} (l m : List Entry) (hl : Good f32 l) (hm : Good f32 m) (t : Tags) :
    ∃ u, processBlock f32 (tagsText (l.map (·.text) ++ ['r'] :: m.map (·.text))) t = .ok u ∧ u.transforms = [] ∧
      ∀ f, valueOf u f = lastSet f (m.map (fun e => (e.field, e.val))) := by
  have hw : ∀ k, Good f32 k → ∀ p ∈ k.map (·.text), Written p ∧ p ≠ [] := by
    intro k hk p hp
    obtain ⟨e, he, rfl⟩ := List.mem_map.1 hp
    exact ⟨(hk e he).2, sets_ne (hk e he).1⟩
  have hr : Written ['r'] ∧ (['r'] : Str) ≠ [] := by unfold Written Level; decide
  unfold processBlock
  rw [splitTags_tagsText _ (by
    intro p hp
    rcases List.mem_append.1 hp with hp | hp
    · exact hw l hl p hp
    · rcases List.mem_cons.1 hp with rfl | hp
      · exact hr
      · exact hw m hm p hp)]
  obtain ⟨u1, h1, _⟩ := block_ok l hl t
  obtain ⟨u2, h2, h3, h4⟩ := block_ok m hm Tags.default
  unfold processBlock blockText at h1 h2
  rw [splitTags_tagsText _ (hw l hl)] at h1
  rw [splitTags_tagsText _ (hw m hm)] at h2
  rw [applyParts_append, h1]
  simp only
  rw [applyParts, show extract ['r'] = .ok (['r'], []) by decide]
  simp only
  rw [applyTag_other (by decide), show otherTag f32 ['r'] [] u1 = .ok Tags.default from rfl]
  refine ⟨u2, h2, by rw [h3]; rfl, fun f => ?_⟩
  rw [h4]
  have : valueOf Tags.default f = none := rfl
  rw [this, Option.or_none]

/-- **C81.**  A tag whose name is not known has no effect. -/
theorem C81_unknown {f32 : Str → Option Rat} (ps qs : List Str) (h : ∀ p ∈ ps ++ qs, Written p ∧ p ≠ []) (n a : Str) (hn : n ≠ [])
    (hl : ∀ c ∈ n, Letter c) (hf : ∀ r, n ≠ "fn".toList ++ r) (hk : n ∉ knownNames) (ha : ∀ c, a.head? = some c → ¬ Letter c)
    (hw : Written (n ++ a)) (t : Tags) :
    processBlock f32 (tagsText (ps ++ (n ++ a) :: qs)) t = processBlock f32 (tagsText (ps ++ qs)) t := by
  unfold processBlock
  rw [splitTags_tagsText _ h, splitTags_tagsText _ (by
    intro p hp
    rcases List.mem_append.1 hp with hp | hp
    · exact h p (by simp [hp])
    · rcases List.mem_cons.1 hp with rfl | hp
      · exact ⟨hw, by simp [hn]⟩
      · exact h p (by simp [hp])), applyParts_append, applyParts_append]
  cases applyParts f32 ps t with
  | err => rfl
  | panic => rfl
  | ok u =>
    simp only
    obtain ⟨h1, h2⟩ := unknown_ok hk (fun c hc => hl c (List.mem_of_mem_head? hc))
    rw [applyParts, extract_letters hn (fun c hc => (Override.isAlpha_iff c).2 (hl c hc)) ha (by
      rw [stripPrefix_eq_none]; exact hf)]
    simp only
    rw [applyTag_other h1, h2]

/-- Two tags of a block, the later for the same attribute. -/
example : Good (fun s => if s = "20".toList then some 20 else none)
    [⟨"fs20".toList, .size, .number 20⟩, ⟨"an8".toList, .alignment, .byte 8⟩, ⟨"an2".toList, .alignment, .byte 2⟩] := by
  intro e he
  simp only [List.mem_cons, List.not_mem_nil, or_false] at he
  rcases he with rfl | rfl | rfl
  · exact ⟨.number "fs".toList .size "20".toList 20 (by decide) (by decide) (by intro c hc; simp at hc; subst hc; unfold Letter; decide),
      by unfold Written Level; decide⟩
  · exact ⟨.byte "an".toList .alignment 8 (by decide) (by decide), by unfold Written Level; decide⟩
  · exact ⟨.byte "an".toList .alignment 2 (by decide) (by decide), by unfold Written Level; decide⟩

/-- A list of arguments, a colour. -/
example : Good (fun s => if s = "20".toList then some 20 else none)
    [⟨"pos(20, 20)".toList, .position, .point 20 20⟩, ⟨"3c&H0080FF&".toList, .outline, .color ⟨255, 128, 0, 0⟩⟩] := by
  intro e he
  simp only [List.mem_cons, List.not_mem_nil, or_false] at he
  have it : ∀ a, (∀ x ∈ a, x = ' ') → Item (fun s => if s = "20".toList then some 20 else none) (a ++ "20".toList) 20 := by
    intro a ha
    exact ⟨a, "20".toList, [], by simp, ha, by simp, by decide,
      by unfold Verif.Spec.EventCmd.Trimmed Verif.Spec.EventCmd.White; simp, by decide, by decide, by decide⟩
  rcases he with rfl | rfl
  · exact ⟨.pos "20".toList " 20".toList 20 20 (it [] (by simp)) (it [' '] (by simp)), by unfold Written Level; decide⟩
  · exact ⟨.color "3c".toList .outline "0080FF".toList "00".toList "80".toList "FF".toList 0 128 255 (by decide) rfl
      ⟨_, _, 0, 0, rfl, by decide, by decide, rfl⟩ ⟨_, _, 8, 0, rfl, by decide, by decide, rfl⟩
      ⟨_, _, 15, 15, rfl, by decide, by decide, rfl⟩, by unfold Written Level; decide⟩

/-- An unknown tag. -/
example : "zz".toList ∉ knownNames ∧ Written "zz5".toList := by unfold Written Level; decide

/-- **C81, violated.**  `\r` with a style name, which should reset to that style, is ignored: the text stays bold. -/
theorem C81_reset_style_violated :
    segment (fun _ => none) "{\\b1}a{\\rAlt}b".toList =
      .ok [⟨"a".toList, 5, 6, ⟨[(.bold, .flag true)], []⟩⟩, ⟨"b".toList, 13, 14, ⟨[(.bold, .flag true)], []⟩⟩] := by decide

/-- **C81, violated.**  `\r` also drops the position, which belongs to the whole event. -/
theorem C81_reset_position_violated :
    segment (fun s => if s = "5".toList then some 5 else none) "{\\pos(5,5)}a{\\r}b".toList =
      .ok [⟨"a".toList, 11, 12, ⟨[(.position, .point 5 5)], []⟩⟩, ⟨"b".toList, 16, 17, ⟨[], []⟩⟩] := by decide +kernel

/-- **C81, violated.**  `\b` without an argument, which should return to the style's weight, switches bold on. -/
theorem C81_no_argument_violated :
    segment (fun _ => none) "{\\b0}a{\\b}b".toList =
      .ok [⟨"a".toList, 5, 6, ⟨[(.bold, .flag false)], []⟩⟩, ⟨"b".toList, 10, 11, ⟨[(.bold, .flag true)], []⟩⟩] := by decide

/-- **C81, violated.**  The older `\a6` means the middle of the top and is taken for `\an6`, the right of the middle row. -/
theorem C81_legacy_alignment_violated :
    segment (fun _ => none) "{\\a6}x".toList = .ok [⟨"x".toList, 5, 6, ⟨[(.alignment, .byte 6)], []⟩⟩] ∧
    segment (fun _ => none) "{\\an6}x".toList = .ok [⟨"x".toList, 6, 7, ⟨[(.alignment, .byte 6)], []⟩⟩] := by decide

/-- **C81, violated.**  A vector clip is ignored. -/
theorem C81_vector_clip_violated :
    segment (fun _ => none) "{\\clip(m 0 0 l 9 0 9 9)}x".toList = .ok [⟨"x".toList, 24, 25, ⟨[], []⟩⟩] := by decide

end Verif.Props.Segment
