import Verif.Lemmas.Karaoke
import Verif.Props.Formats
/-!
# C35, C64 — karaoke timing
-/
namespace Verif.Props
open Verif Verif.Karaoke Verif.Spec.Kara
open Verif.Spec.SrtDoc (White)
open Verif.Spec.Fmt (Stripped)

/-! ## C35: generating, splitting, applying -/

/-- **C35.** Whatever the text, the characters that are not white space all come back, in order, when the timing
blocks are taken out again. -/
theorem C35_letters (kind : Kind) (d : Nat) (auto : Bool) {text out : Str} (h : generate kind d auto text = some out) :
    ∃ t, Stripped out t ∧ ∀ p : Char → Bool, (∀ c, p c = true ↔ ¬ White c) → t.filter p = text.filter p := by
  unfold generate at h
  split at h
  · simp at h
  · next hb =>
    simp only [not_or] at hb
    simp only [Option.some.injEq] at h
    subst h
    refine ⟨(syllables auto text).flatten, ?_, fun p hp => ?_⟩
    rotate_left
    · have e : p = fun c => !isWs c := by
        funext c
        rw [Bool.eq_iff_iff, hp c, ← SrtDoc.white_iff c]
        simp
      rw [e]
      exact syllables_solid auto text
    exact writeFrom_stripped _ d (isName_no_brace (kind_tag kind)).1 _
      (fun p hp hm => hb.1 (mem_syllables auto text p hp _ hm)) true

/-- **C35, in part.** Without two blanks in a row and without a blank at the end, the text is cut into pieces that
make up the text again, and each piece gets its block.  Missing: the other texts, see `C35_blanks_violated`. -/
theorem C35_generate_partial (kind : Kind) (d : Nat) (auto : Bool) {text : Str} (hb : '{' ∉ text ∧ '}' ∉ text)
    (hs : SingleBlanks text) (hl : ∀ c, text.getLast? = some c → ¬ White c) :
    ∃ pieces : List Str, generate kind d auto text = some ((pieces.map (block kind.tag d ++ ·)).flatten) ∧ pieces.flatten = text := by
  have h := syllables_exact auto hs hl
  refine ⟨syllables auto text, ?_, h.1⟩
  unfold generate
  rw [if_neg (by simp [hb])]
  by_cases hauto : auto = true
  · by_cases hne : text = []
    · subst hne
      subst hauto
      have : syllables true [] = [[]] := by decide
      rw [this]
      simp [writeFrom, tagText_eq]
    · rw [writeFrom_eq _ _ _ (h.2 hne hauto)]
  · have : syllables auto text = [text] := by simp at hauto; simp [syllables, hauto]
    rw [this]
    simp [writeFrom, tagText_eq]

/-- Text that already holds braces is refused. -/
theorem C35_refuses (kind : Kind) (d : Nat) (auto : Bool) {text : Str} (hb : '{' ∈ text ∨ '}' ∈ text) :
    generate kind d auto text = none := by
  unfold generate; rw [if_pos hb]

example : generate .fill 30 true "banana split".toList =
    some "{\\kf30}ba{\\kf30}na{\\kf30}na{\\kf30} spli{\\kf30}t".toList := by decide

example : SingleBlanks "banana split".toList := by
  intro a x y b e h
  have hx := (SrtDoc.white_iff x).2 h.1
  have hy := (SrtDoc.white_iff y).2 h.2
  have key : ∀ i, i < "banana split".toList.length → ¬ (isWs ("banana split".toList.getD i 'a') = true ∧
      isWs ("banana split".toList.getD (i + 1) 'a') = true) := by decide
  have hlen : a.length < "banana split".toList.length := by rw [e]; simp
  refine key a.length hlen ?_
  rw [e]
  simp [List.getD, hx, hy]

/-- **C35 does not hold for every text:** two blanks become three, and a blank at the end is lost. -/
theorem C35_blanks_violated :
    (syllables true "a  b".toList).flatten = "a   b".toList ∧ (syllables true "a ".toList).flatten = "a".toList := by
  decide

/-- **C35.** Splitting, whenever it returns, cuts the text into non-empty pieces that make it up, each with its
block. -/
theorem C35_split {positions : List Nat} {d : Nat} {text out : Str}
    (h : splitKaraoke positions (some d) text = .ok out) :
    ∃ pieces : List Str, pieces.flatten = text ∧ (∀ p ∈ pieces, p ≠ []) ∧
      out = (pieces.map (block "k".toList d ++ ·)).flatten := by
  have := splitLoop_ok d positions [] text out h
  exact this

/-- **C35.** Given the byte positions of the cuts between non-empty pieces, splitting returns and cuts right there. -/
theorem C35_split_at (pieces : List Str) (d : Nat) (h : ∀ p ∈ pieces, p ≠ []) :
    splitKaraoke ((List.range (pieces.length - 1)).map (fun i => byteLen (pieces.take (i + 1)).flatten)) (some d)
      pieces.flatten = .ok ((pieces.map (block "k".toList d ++ ·)).flatten) := by
  have := splitLoop_cut d pieces [] h
  simpa [splitKaraoke] using this

example : splitKaraoke [3, 5] none "né ma".toList = .ok "{\\k50}né{\\k50} m{\\k50}a".toList := by decide

/-- **C35 fails for some positions:** a position inside a character crashes the command. -/
theorem C35_split_total_violated : splitKaraoke [2] none "né".toList = .panic := by decide

/-- **C35.** Applying a template with equal durations writes the words of the text outside blocks, one blank between
them, each with its block — and nothing else. -/
theorem C35_apply_equal (d : Nat) (kind : Kind) {text t : Str} {l : List Str} (ho : Outside text t) (hw : Words t l) :
    applyTemplate (.equal d kind) text = .ok ([' '].intercalate (l.map (block kind.tag d ++ ·))) := by
  unfold applyTemplate
  simp only [cleanText_eq ho _ (Nat.le_refl _), words_eq hw, applyFrom_eq]
  congr 2
  simp [List.mapIdx_eq_zipIdx_map]
  apply List.ext_getElem?
  intro i
  simp only [List.getElem?_map, List.getElem?_zipIdx, Option.map_map]
  rfl

/-- **C35, in part.** Applying a pattern gives the i-th word the i-th duration of the pattern, repeated over and over.
Missing: the empty pattern, see `C35_apply_empty_violated`. -/
theorem C35_apply_pattern_partial (ds : List Nat) (kind : Kind) {text t : Str} {l : List Str} (ho : Outside text t)
    (hw : Words t l) (hd : 0 < ds.length) :
    applyTemplate (.pattern ds kind) text =
      .ok ([' '].intercalate (l.mapIdx fun i w => block kind.tag (ds[i % ds.length]'(Nat.mod_lt _ hd)) ++ w)) := by
  unfold applyTemplate
  have hne : ds ≠ [] := List.length_pos_iff.1 hd
  simp only [cleanText_eq ho _ (Nat.le_refl _), words_eq hw, applyFrom_eq, hne, false_and, if_false]
  congr 3
  funext i w
  rw [List.getElem?_eq_getElem (Nat.mod_lt _ hd)]
  rfl

/-- **C35.** Taking the blocks out again leaves the words with one blank between them. -/
theorem C35_apply_words (dur : Nat → Nat) (kind : Kind) (l : List Str) (h : ∀ w ∈ l, '{' ∉ w) :
    Stripped ([' '].intercalate (l.mapIdx fun i w => block kind.tag (dur i) ++ w)) ([' '].intercalate l) :=
  intercalate_stripped _ _ (isName_no_brace (kind_tag kind)).1 l h

/-- **C35 fails for an empty pattern:** the command crashes. -/
theorem C35_apply_empty_violated : applyTemplate (.pattern [] .standard) "a".toList = .panic := by decide

example : applyTemplate (.pattern [10, 20] .fill) "a  {\\b1}bc d".toList =
    .ok "{\\kf10}a {\\kf20}bc {\\kf10}d".toList := by decide

example : Outside "a{\\b1}b".toList "ab".toList :=
  .char 'a' _ _ (by decide) (.block "\\b1".toList _ _ (.other _ _ _ (by decide) (by decide) (.other _ _ _ (by decide) (by decide)
    (.other _ _ _ (by decide) (by decide) .done))) (.char 'b' _ _ (by decide) .nil))

example : Words " a b".toList ["a".toList, "b".toList] :=
  .cons " ".toList "a".toList " b".toList _ (by unfold White; decide) (by decide) (by unfold White; decide)
    (by unfold White; simp) (.cons " ".toList "b".toList [] _ (by unfold White; decide) (by decide) (by unfold White; decide)
      (by simp) (.nil [] (by simp)))

/-! ## C64: adjusting -/

/-- **C64.** Adjusting never changes the text outside the blocks (whenever all blocks are closed and the command
returns). -/
theorem C64_outside (a : Adjust) {text t out : Str} (ho : Outside text t) (h : adjust a text = .ok out) : Outside out t :=
  adjustLoop_outside a ho _ _ _ (Nat.le_refl _) h

/-- **C64, in part.** On a line whose blocks hold one timing tag each, setting all durations does exactly that.
Missing (here and below): blocks with further tags, see `C64_several_violated`. -/
theorem C64_set_all_partial (d : Nat) (ps : List Piece) (h : Line ps) :
    adjust (.setAll d) (line ps) = .ok (line (retime (fun _ => d) ps)) :=
  adjustLoop_line _ _ ps (fun _ _ _ _ => rfl) h _ _ (Nat.le_refl _)

/-- **C64, in part.** An offset is added to every duration, which stays at least 1 — as long as the sums fit 32 bits.
Missing: sums beyond 32 bits (`C64_offset_violated`) and lines with several tags in a block (`C64_several_violated`). -/
theorem C64_offset_partial (z : Int) (ps : List Piece) (h : Line ps)
    (hr : ∀ n d, Piece.time n d ∈ ps → d < 2 ^ 31 ∧ -(2 ^ 31) ≤ (d : Int) + z ∧ (d : Int) + z < 2 ^ 31) :
    adjust (.offset z) (line ps) = .ok (line (retime (fun d => (max ((d : Int) + z) 1).toNat) ps)) := by
  refine adjustLoop_line _ _ ps ?_ h _ _ (Nat.le_refl _)
  intro n d idx hm
  obtain ⟨h1, h2, h3⟩ := hr n d hm
  simp only [newDuration, asI32, if_pos h1]
  rw [if_neg (by omega)]

/-- **C64, in part.** Scaling applies its function to every duration.
Missing: lines with several tags in a block (`C64_several_violated`) or blocks that are not closed (`C64_unclosed_violated`). -/
theorem C64_scale_partial (f : Nat → Nat) (ps : List Piece) (h : Line ps) :
    adjust (.scale f) (line ps) = .ok (line (retime f ps)) :=
  adjustLoop_line _ _ ps (fun _ _ _ _ => rfl) h _ _ (Nat.le_refl _)

/-- **C64, in part.** Given durations are used in order, as long as they last.
Missing: lines with several tags in a block (`C64_several_violated`) or blocks that are not closed (`C64_unclosed_violated`). -/
theorem C64_custom_partial (ts : List Nat) (ps : List Piece) (h : Line ps) :
    adjust (.custom ts) (line ps) = .ok (line (retimeFrom ts ps)) := by
  have := adjustLoop_custom ts ps h _ 0 (Nat.le_refl _)
  rw [List.drop_zero] at this
  exact this

example : Line [.time "k".toList 30, .ch 'a', .time "kf".toList 5, .ch 'b'] := by
  intro p hp
  simp at hp
  rcases hp with rfl | rfl | rfl | rfl
  · exact ⟨.inl rfl, by decide⟩
  · show 'a' ≠ '{'; decide
  · exact ⟨.inr (.inl rfl), by decide⟩
  · show 'b' ≠ '{'; decide

example : adjust (.custom [7]) "{\\k30}a{\\kf5}b".toList = .ok "{\\k7}a{\\kf5}b".toList := by decide

/-- **C64 does not hold for every block:** with two tags in a block, the shorter one is a prefix of the longer one,
and setting all durations to 5 makes 50 of the 10. -/
theorem C64_several_violated : adjust (.setAll 5) "{\\k10\\k1}".toList = .ok "{\\k50\\k5}".toList := by decide

/-- **C64 does not hold for every block:** the prefix of another tag's number is rewritten too, although it belongs
to no timing tag of that duration (here `\k1` inside the `\t` arguments' `\k12`). -/
theorem C64_prefix_violated : adjust (.setAll 5) "{\\t(\\k12)\\k1}".toList = .ok "{\\t(\\k52)\\k5}".toList := by decide

/-- **C64 does not hold for every offset:** the sum may overflow. -/
theorem C64_offset_violated : adjust (.offset 1) "{\\k2147483647}".toList = .panic := by decide

/-- **C64 does not hold for a block left open:** it is closed. -/
theorem C64_unclosed_violated : adjust (.setAll 5) "a{b".toList = .ok "a{b}".toList := by decide

end Verif.Props
