import Verif.Props.StyleCmd
import Verif.Props.EventCmd
/-!
# C68 — giving another style to the events of a style
-/
namespace Verif.Props
open Verif Verif.Doc Verif.Pos Verif.StyleCmd Verif.InfoCmd Verif.EventCmd
open Verif.Spec.EventCmd (Lacks Each Row table End IsEvent Trimmed)
open Verif.Spec.StyleCmd

theorem eventsStart_head {h : Str} (hh : EventsHead h) (body : Str) : eventsStart (h ++ body) = some h := by
  obtain ⟨a, b, f, rfl, h1, h2, h3⟩ := hh
  unfold eventsStart
  have e : a ++ "[Events]".toList ++ b ++ '\n' :: (f ++ ['\n']) ++ body =
      a ++ ("[Events".toList ++ [']']) ++ (b ++ '\n' :: (f ++ '\n' :: body)) := by simp
  have hf : Lacks ("[Events".toList ++ [']']) (a ++ "[Events".toList) := h1
  rw [e, show "[Events]".toList = "[Events".toList ++ [']'] from rfl, first_of_lacks hf]
  simp only
  rw [splitOnce_append _ h2]
  simp only
  rw [splitOnce_append _ h3]
  simp

/-- Two commas around a word: no occurrence in comma-free pieces. -/
theorem lacks_comma {old : Str} (ho : ',' ∉ old) {a : Str} (ha : ',' ∉ a) {t : Str} (hne : ∀ x, t ≠ x → True)
    (h : Lacks (',' :: old ++ [',']) (',' :: t)) : Lacks (',' :: old ++ [',']) (a ++ ',' :: t) := by
  clear hne
  intro x y e
  rcases List.append_eq_append_iff.1 (by rw [e, List.append_assoc] : a ++ ',' :: t = x ++ ((',' :: old ++ [',']) ++ y)) with ⟨z, e1, e2⟩ | ⟨z, e1, e2⟩
  · exact h z y (by rw [e2]; simp)
  · cases z with
    | nil => exact h [] y (by simpa using e2.symm)
    | cons c z =>
      simp at e2
      exact ha (by rw [e1, ← e2.1]; simp)

theorem lacks_field {old : Str} (ho : ',' ∉ old) {a t : Str} (ha : ',' ∉ a) (hne : a ≠ old)
    (h : Lacks (',' :: old ++ [',']) (',' :: t)) : Lacks (',' :: old ++ [',']) (',' :: (a ++ ',' :: t)) := by
  intro x y e
  cases x with
  | nil =>
    simp at e
    -- a ++ ',' :: t = old ++ ',' :: y
    have h1 := splitOnce_append t ha
    have h2 := splitOnce_append y ho
    rw [e] at h1
    rw [h1] at h2
    simp at h2
    exact hne h2.1
  | cons c x =>
    simp only [List.cons_append, List.cons.injEq] at e
    exact lacks_comma ho ha (fun _ _ => trivial) h x y (by simpa using e.2)

theorem applyEdit_restyled {old new : Str} (ho : ',' ∉ old) {l l' : Str} (h : Restyled old new l l') :
    applyEdit old new none l = some l' ∨ (applyEdit old new none l = none ∧ l' = l) := by
  obtain ⟨kind, layer, start, fin, style, rest, hk, c1, c2, c3, c4, ht, rfl, rfl, hold⟩ := h
  have ck : ',' ∉ kind := by rcases hk with rfl | rfl <;> decide
  have hsplit : ∃ r0 rs, splitOn ',' (event kind layer start fin style rest) = (kind ++ layer) :: start :: fin :: style :: r0 :: rs := by
    unfold event
    rw [splitOn_append_sep _ (by simp [ck, c1]), splitOn_append_sep _ c2, splitOn_append_sep _ c3, splitOn_append_sep _ c4]
    cases hr : splitOn ',' rest with
    | nil => exact absurd hr (splitOn_ne_nil _ _)
    | cons r0 rs => exact ⟨r0, rs, rfl⟩
  obtain ⟨r0, rs, hs⟩ := hsplit
  unfold applyEdit
  rw [hs]
  simp only [Bool.and_true, decide_eq_true_eq]
  rw [trimmed_trim ht]
  by_cases hst : style = old
  · left
    rw [if_pos hst, if_pos hst]
    obtain ⟨g1, g2, g3⟩ := hold hst
    subst hst
    congr 1
    have hA : Lacks (',' :: style ++ [',']) ((kind ++ layer ++ ',' :: (start ++ ',' :: fin)) ++ (',' :: style)) := by
      have e : (kind ++ layer ++ ',' :: (start ++ ',' :: fin)) ++ (',' :: style) =
          (kind ++ layer) ++ ',' :: (start ++ ',' :: (fin ++ ',' :: style)) := by simp
      rw [e]
      refine lacks_comma c4 (by simp [ck, c1]) (fun _ _ => trivial) (lacks_field c4 c2 g1 (lacks_field c4 c3 g2 ?_))
      exact lacks_len (by simp)
    have hfirst := first_of_lacks hA rest
    have e2 : event kind layer start fin style rest =
        (kind ++ layer ++ ',' :: (start ++ ',' :: fin)) ++ (',' :: style ++ [',']) ++ rest := by
      unfold event; simp
    rw [e2, replaceAll_split (by simp) hfirst, replaceAll_lacks g3]
    unfold event
    simp
  · right
    rw [if_neg hst, if_neg hst]
    exact ⟨rfl, rfl⟩

/-- **C68 (part).** Applying a style changes exactly the style field of the events that use the other style;
every other byte stays.  `rows` are the lines after the format line, up to an empty line or another section (a second header of the
events does not end them, `C68_again`).  Missing: names of different lengths
(`C68_length_violated`), the other name standing between two commas elsewhere in the line
(`C68_text_violated`), blanks around the style (`C68_blanks_violated`); for the filter see `C68_filter_partial`. -/
theorem C68_apply_partial (d : Doc) (h t old new : Str) (rows rows' : List Str) (hh : EventsHead h)
    (ho : ',' ∉ old) (hlen : byteLen new = byteLen old)
    (hrows : ∀ r ∈ rows, Row r) (ht : End t)
    (hx : t.takeWhile (· ≠ '\n') ≠ "[Events]".toList)
    (hR : Each (fun _ l l' => Restyled old new l l') 0 rows rows')
    (hd : d.text = h ++ table rows ++ t) :
    ∃ d', Does (apply old new none) d (.ok (), d') ∧ d'.text = h ++ table rows' ++ t := by
  have key := ends_each (ag := true) (edit := fun _ l => .ok (applyEdit old new none l)) hR (by
    intro j l l' hr
    constructor
    · obtain ⟨kind, layer, start, fin, style, rest, _, _, _, _, _, _, rfl, rfl, _⟩ := hr
      unfold event
      by_cases hst : style = old
      · rw [if_pos hst, hst]; simp only [byteLen_append, byteLen_cons]; omega
      · rw [if_neg hst]
    · rcases applyEdit_restyled ho hr with h | ⟨h, h'⟩
      · exact Or.inl (by rw [h])
      · exact Or.inr ⟨by rw [h], h'⟩) hd hrows ht (fun _ => hx)
  obtain ⟨d', ⟨n, hn⟩, h2⟩ := key
  refine ⟨d', ⟨n, ?_⟩, h2⟩
  intro m hm
  unfold apply
  rw [hd, List.append_assoc, eventsStart_head hh]
  exact editLoop_le hm hn

theorem applyEdit_filter (old new f l : Str) : applyEdit old new (some f) l = if containsStr f l then applyEdit old new none l else none := by
  unfold applyEdit
  cases h : containsStr f l <;> split <;> simp [h]

/-- **C68 (filter, part).** With a filter, the same for the events whose line contains the text of the filter; the others stay as they
are.  Missing: as for `C68_apply_partial`; and the line is searched, not the text of the event (`C68_filter_violated`). -/
theorem C68_filter_partial (d : Doc) (h t old new f : Str) (rows rows' : List Str) (hh : EventsHead h)
    (ho : ',' ∉ old) (hlen : byteLen new = byteLen old) (hrows : ∀ r ∈ rows, Row r) (ht : End t)
    (hx : t.takeWhile (· ≠ '\n') ≠ "[Events]".toList)
    (hR : Each (fun _ l l' => ((∃ a b, l = a ++ f ++ b) ∧ Restyled old new l l') ∨ (Lacks f l ∧ l' = l)) 0 rows rows')
    (hd : d.text = h ++ table rows ++ t) :
    ∃ d', Does (apply old new (some f)) d (.ok (), d') ∧ d'.text = h ++ table rows' ++ t := by
  have key := ends_each (ag := true) (edit := fun _ l => .ok (applyEdit old new (some f) l)) hR (by
    rintro j l l' (⟨hf, hr⟩ | ⟨hf, rfl⟩)
    · constructor
      · obtain ⟨kind, layer, start, fin, style, rest, _, _, _, _, _, _, rfl, rfl, _⟩ := hr
        unfold event
        by_cases hst : style = old
        · rw [if_pos hst, hst]; simp only [byteLen_append, byteLen_cons]; omega
        · rw [if_neg hst]
      · rw [applyEdit_filter, if_pos (containsStr_iff.2 hf)]
        rcases applyEdit_restyled ho hr with h | ⟨h, h'⟩
        · exact Or.inl (by rw [h])
        · exact Or.inr ⟨by rw [h], h'⟩
    · refine ⟨rfl, Or.inr ⟨?_, rfl⟩⟩
      rw [applyEdit_filter, if_neg (by rw [containsStr_false.2 hf]; decide)]) hd hrows ht (fun _ => hx)
  obtain ⟨d', ⟨n, hn⟩, h2⟩ := key
  refine ⟨d', ⟨n, ?_⟩, h2⟩
  intro m hm
  unfold apply
  rw [hd, List.append_assoc, eventsStart_head hh]
  exact editLoop_le hm hn

/-- Sample events. -/
def exRows : List Str :=
  ["Dialogue: 0,0:00:01.00,0:00:02.00,Sign,,0,0,0,,Hello, you".toList, "; note".toList,
   "Comment: 0,0:00:03.00,0:00:04.00,Main,,0,0,0,,x".toList]

def exRows' : List Str :=
  ["Dialogue: 0,0:00:01.00,0:00:02.00,Note,,0,0,0,,Hello, you".toList, "; note".toList,
   "Comment: 0,0:00:03.00,0:00:04.00,Main,,0,0,0,,x".toList]

theorem trimmed_word {s : Str} (h1 : ∀ c ∈ s, isWs c = false) : Trimmed s := by
  constructor
  · intro c hc hw
    have := h1 c (List.mem_of_head? hc)
    rw [(SrtDoc.white_iff c).2 hw] at this; simp at this
  · intro c hc hw
    have := h1 c (List.mem_of_getLast? hc)
    rw [(SrtDoc.white_iff c).2 hw] at this; simp at this

example : ∃ d', Does (apply "Sign".toList "Note".toList none)
      ⟨"[Events]\nFormat: x\n".toList ++ table exRows ++ [], Stack.new ⟨50, 0, 100⟩⟩ (.ok (), d') ∧
    d'.text = "[Events]\nFormat: x\n".toList ++ table exRows' ++ [] := by
  refine C68_apply_partial _ _ _ _ _ exRows exRows' ⟨[], [], "Format: x".toList, rfl, splitOnceStr_none.1 (by decide), by decide, by decide⟩
    (by decide) (by decide) ?_ (Or.inl rfl) (by decide) ?_ rfl
  · intro r hr
    simp only [exRows, List.mem_cons, List.not_mem_nil, or_false] at hr
    rcases hr with rfl | rfl | rfl <;> exact ⟨by decide, by decide, by decide⟩
  · refine .event ⟨" 0,0:00:01.00,0:00:02.00,Sign,,0,0,0,,Hello, you".toList, Or.inl rfl⟩ ?_ (.other ?_ (.event ⟨" 0,0:00:03.00,0:00:04.00,Main,,0,0,0,,x".toList, Or.inr rfl⟩ ?_ .nil))
    · exact ⟨"Dialogue: ".toList, "0".toList, "0:00:01.00".toList, "0:00:02.00".toList, "Sign".toList, ",0,0,0,,Hello, you".toList,
        Or.inl rfl, by decide, by decide, by decide, by decide, trimmed_word (by decide), by decide, by decide,
        fun _ => ⟨by decide, by decide, splitOnceStr_none.1 (by decide)⟩⟩
    · rintro ⟨x, h | h⟩ <;> simp at h
    · exact ⟨"Comment: ".toList, "0".toList, "0:00:03.00".toList, "0:00:04.00".toList, "Main".toList, ",0,0,0,,x".toList,
        Or.inr rfl, by decide, by decide, by decide, by decide, trimmed_word (by decide), by decide, by decide,
        fun h => absurd h (by decide)⟩

/-! ## Where the full property fails -/

def exApply (l1 l2 : String) : Doc :=
  ⟨"[Events]\nFormat: x\n".toList ++ l1.toList ++ ['\n'] ++ l2.toList ++ ['\n'], Stack.new ⟨50, 0, 100⟩⟩

/-- Two events of a style, of which one contains the text of the filter. -/
example : ∃ d', Does (apply "Sign".toList "Note".toList (some "you".toList))
      ⟨"[Events]\nFormat: x\n".toList ++ table ["Dialogue: 0,1,2,Sign,,you".toList, "Dialogue: 0,1,2,Sign,,me".toList] ++ [], Stack.new ⟨50, 0, 100⟩⟩
      (.ok (), d') ∧
    d'.text = "[Events]\nFormat: x\n".toList ++ table ["Dialogue: 0,1,2,Note,,you".toList, "Dialogue: 0,1,2,Sign,,me".toList] ++ [] := by
  refine C68_filter_partial _ _ _ _ _ _ _ _ ⟨[], [], "Format: x".toList, rfl, splitOnceStr_none.1 (by decide), by decide, by decide⟩
    (by decide) (by decide) ?_ (Or.inl rfl) (by decide) ?_ rfl
  · intro r hr
    simp only [List.mem_cons, List.not_mem_nil, or_false] at hr
    rcases hr with rfl | rfl <;> exact ⟨by decide, by decide, by decide⟩
  · refine .event ⟨" 0,1,2,Sign,,you".toList, Or.inl rfl⟩ (Or.inl ⟨⟨"Dialogue: 0,1,2,Sign,,".toList, [], by decide⟩, ?_⟩)
      (.event ⟨" 0,1,2,Sign,,me".toList, Or.inl rfl⟩ (Or.inr ⟨splitOnceStr_none.1 (by decide), rfl⟩) .nil)
    exact ⟨"Dialogue: ".toList, "0".toList, "1".toList, "2".toList, "Sign".toList, ",you".toList,
      Or.inl rfl, by decide, by decide, by decide, by decide, trimmed_word (by decide), by decide, by decide,
      fun _ => ⟨by decide, by decide, splitOnceStr_none.1 (by decide)⟩⟩

/-- **C68 fails** for a filter that is found elsewhere in the line: documented as a filter for the text of events, it lets an event
through whose style it is. -/
theorem C68_filter_violated :
    (apply "Sign".toList "Note".toList (some "Sign".toList) 9 (exApply "Dialogue: 0,1,2,Sign,,x" "Dialogue: 0,1,2,Main,,Sign")).map
      (fun r => (r.1, r.2.text)) = some (.ok (), "[Events]\nFormat: x\nDialogue: 0,1,2,Note,,x\nDialogue: 0,1,2,Main,,Sign\n".toList) := by
  decide

/-- **C68 fails** for names of different lengths: the second event keeps the old style. -/
theorem C68_length_violated :
    (apply "Longer".toList "A".toList none 9 (exApply "Dialogue: 0,1,2,Longer,,x" "Dialogue: 0,1,2,Longer,,y")).map (fun r => (r.1, r.2.text)) =
      some (.ok (), "[Events]\nFormat: x\nDialogue: 0,1,2,A,,x\nDialogue: 0,1,2,Longer,,y\n".toList) := by
  decide

/-- **C68 fails** for the rest of the line: the name between two commas of the text is changed too. -/
theorem C68_text_violated :
    (apply "A".toList "B".toList none 9 (exApply "Dialogue: 0,1,2,A,,me,A,you" "Dialogue: 0,1,2,C,,y")).map (fun r => (r.1, r.2.text)) =
      some (.ok (), "[Events]\nFormat: x\nDialogue: 0,1,2,B,,me,B,you\nDialogue: 0,1,2,C,,y\n".toList) := by
  decide

/-- **C68 fails** for a style with blanks around it (which the command itself recognises): the command reports
a changed event, but nothing changes. -/
theorem C68_blanks_violated :
    (apply "A".toList "B".toList none 9 (exApply "Dialogue: 0,1,2, A,,x" "Dialogue: 0,1,2,C,,y")).map (fun r => (r.1, r.2.text)) =
      some (.ok (), "[Events]\nFormat: x\nDialogue: 0,1,2, A,,x\nDialogue: 0,1,2,C,,y\n".toList) := by
  decide

/-- **C68.** The events behind a second header of the events get the style too, those of another section do not. -/
theorem C68_again :
    (apply "A".toList "B".toList none 9 (exApply "[Events]" "Dialogue: 0,1,2,A,,y")).map (fun r => (r.1, r.2.text)) =
      some (.ok (), "[Events]\nFormat: x\n[Events]\nDialogue: 0,1,2,B,,y\n".toList) ∧
    (apply "A".toList "B".toList none 9 (exApply "[Other]" "Dialogue: 0,1,2,A,,y")).map (fun r => (r.1, r.2.text)) =
      some (.ok (), "[Events]\nFormat: x\n[Other]\nDialogue: 0,1,2,A,,y\n".toList) := by
  decide

end Verif.Props
