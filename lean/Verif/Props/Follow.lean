import Verif.Spec.Follow
import Verif.Props.Doc
import Verif.Props.IncEdit
/-!
# C168 — following a document by its events
-/
namespace Verif.Props.Follow
open Verif Verif.Pos Verif.Doc Verif.Follow Verif.Spec Verif.Spec.Follow
open Verif.Spec.Script (size)
open Verif.IncEdit (IDoc)
open Verif.Spec.IncEdit (Short place Unfit)
open Verif.Parser (Section)

theorem size_append (a b : Str) : size (a ++ b) = size a + size b := byteLen_append a b

theorem size_zero {x : Str} (h : size x = 0) : x = [] := by
  cases x with
  | nil => rfl
  | cons c x =>
    have h : byteLen (c :: x) = 0 := h
    rw [byteLen_cons] at h
    have := utf8Size_pos c
    omega

/-- A text is cut at a place in one way only. -/
theorem cut_size {a b a' b' : Str} (h : a ++ b = a' ++ b') (hs : size a = size a') : a = a' ∧ b = b' := by
  have : a = a' := by
    rcases List.append_eq_append_iff.1 h with ⟨x, rfl, -⟩ | ⟨x, rfl, -⟩
    · rw [size_append] at hs
      rw [size_zero (x := x) (by omega), List.append_nil]
    · rw [size_append] at hs
      rw [size_zero (x := x) (by omega), List.append_nil]
  subst this
  exact ⟨rfl, List.append_cancel_left h⟩

theorem cut_size2 {a m b a' m' b' : Str} (h : a ++ m ++ b = a' ++ m' ++ b') (ha : size a = size a') (hm : size m = size m') :
    a = a' ∧ m = m' ∧ b = b' := by
  rw [List.append_assoc, List.append_assoc] at h
  obtain ⟨rfl, h2⟩ := cut_size h ha
  obtain ⟨rfl, rfl⟩ := cut_size h2 hm
  exact ⟨rfl, rfl, rfl⟩

theorem split {s : Str} {r : Range} (h1 : Between s r.start) (h2 : Between s r.fin) (h : r.start ≤ r.fin) :
    ∃ a m b, s = a ++ m ++ b ∧ r = ⟨size a, size a + size m⟩ := by
  obtain ⟨a, b, rfl, e1⟩ := h1
  obtain ⟨c, e, hs, e2⟩ := h2
  rcases List.append_eq_append_iff.1 hs with ⟨x, rfl, rfl⟩ | ⟨x, rfl, rfl⟩
  · refine ⟨a, x, e, by rw [List.append_assoc], ?_⟩
    rw [← size_append, e2, e1]
  · rw [size_append] at e1
    obtain rfl := size_zero (x := x) (by omega)
    refine ⟨c, [], b, by simp, ?_⟩
    have : r.start = r.fin := by have : size ([] : Str) = 0 := rfl; omega
    cases r
    dsimp only at this e2
    subst this
    rw [e2]; rfl

theorem splice_of {s : Str} {e : Edit} (h : Clear s e) :
    (∃ v t, Splice s e t ∧ Says s v t) ∨
    (match e with | .insert p _ => byteLen s < p | .delete r => byteLen s < r.fin | .replace r _ => byteLen s < r.fin) := by
  cases e with
  | insert p t =>
    rcases h with ⟨a, b, rfl, rfl⟩ | h
    · exact .inl ⟨_, _, .insert a b t, .inserted a b t⟩
    · exact .inr h
  | delete r =>
    rcases h with ⟨h1, h2, h3⟩ | h
    · obtain ⟨a, m, b, rfl, rfl⟩ := split h1 h2 h3
      exact .inl ⟨_, _, .delete a m b, .deleted a m b⟩
    · exact .inr h
  | replace r t =>
    rcases h with ⟨h1, h2, h3⟩ | h
    · obtain ⟨a, m, b, rfl, rfl⟩ := split h1 h2 h3
      exact .inl ⟨_, _, .replace a m b t, .replaced a m b t⟩
    · exact .inr h

theorem told_splice (d : Doc) {e : Edit} {t : Str} (h : Splice d.text e t) : ∃ v, told d (.edit e) = [v] ∧ Says d.text v t := by
  have h0 := h
  generalize hd : d.text = s at h
  cases h with
  | insert a b t =>
    refine ⟨.inserted (byteLen a) t (byteLen t), ?_, .inserted a b t⟩
    simp only [told, toldEdit, Doc.insert, hd, insertRaw_at]
  | delete a m b =>
    refine ⟨.deleted ⟨byteLen a, byteLen a + byteLen m⟩ m, ?_, .deleted a m b⟩
    simp only [told, toldEdit, Doc.delete, hd, textRange_at, deleteRaw_at]
  | replace a m b n =>
    refine ⟨.replaced ⟨byteLen a, byteLen a + byteLen m⟩ m n, ?_, .replaced a m b n⟩
    simp only [told, toldEdit, Doc.replace, hd, textRange_at, replaceRaw_at]

/-- **C168, partial.** An edit that begins and ends between characters is told by one event, which says how the old text became the new one,
with the text that was there before; an edit behind the text is refused and nothing is told.

Missing: edits that begin or end within a character (`C168_within_violated`). -/
theorem C168_edit_partial (d : Doc) (e : Edit) (h : Clear d.text e) :
    ((e.run d).1 = .ok () ∧ ∃ v, told d (.edit e) = [v] ∧ Says d.text v (e.run d).2.text) ∨
    (e.run d = (.err, d) ∧ told d (.edit e) = []) := by
  rcases splice_of h with ⟨_, t, hs, -⟩ | hr
  · obtain ⟨h1, h2⟩ := C15_edit_exact d e t hs
    rw [h2]
    exact .inl ⟨h1, told_splice d hs⟩
  · refine .inr ?_
    cases e with
    | insert p t => 
      have := (C15_rejected_unchanged d).1 p t hr
      exact ⟨this, by simp only [told, toldEdit, this]⟩
    | delete r =>
      have := (C15_rejected_unchanged d).2.1 r hr
      refine ⟨this, ?_⟩
      simp only [told, toldEdit, this]
      cases textRange d.text r <;> rfl
    | replace r t =>
      have := (C15_rejected_unchanged d).2.2 r t hr
      refine ⟨this, ?_⟩
      simp only [told, toldEdit, this]
      cases textRange d.text r <;> rfl

example : told exDoc (.edit (.replace ⟨1, 3⟩ "ab".toList)) = [.replaced ⟨1, 3⟩ "é".toList "ab".toList] := by decide +kernel

theorem says_forward {s t t' : Str} {v : Event} (h : Says s v t) (h' : Says s v t') : t = t' := by
  generalize hv : v = w at h'
  generalize hs : s = u at h'
  cases h with
  | inserted a b x =>
    cases h' with
    | inserted a' b' x' =>
      injection hv with h1 h2
      subst h2
      obtain ⟨rfl, rfl⟩ := cut_size hs h1
      rfl
    | _ => cases hv
  | deleted a m b =>
    cases h' with
    | deleted a' m' b' =>
      injection hv with h1 h2
      subst h2
      obtain ⟨rfl, -, rfl⟩ := cut_size2 hs (Range.mk.inj h1).1 rfl
      rfl
    | _ => cases hv
  | replaced a m b n =>
    cases h' with
    | replaced a' m' b' n' =>
      injection hv with h1 h2 h3
      subst h2 h3
      obtain ⟨rfl, -, rfl⟩ := cut_size2 hs (Range.mk.inj h1).1 rfl
      rfl
    | _ => cases hv

theorem says_back {s s' t : Str} {v : Event} (h : Says s v t) (h' : Says s' v t) : s = s' := by
  generalize hv : v = w at h'
  generalize hs : t = u at h'
  cases h with
  | inserted a b x =>
    cases h' with
    | inserted a' b' x' =>
      injection hv with h1 h2
      subst h2
      obtain ⟨rfl, -, rfl⟩ := cut_size2 hs h1 rfl
      rfl
    | _ => cases hv
  | deleted a m b =>
    cases h' with
    | deleted a' m' b' =>
      injection hv with h1 h2
      subst h2
      obtain ⟨rfl, rfl⟩ := cut_size hs (Range.mk.inj h1).1
      rfl
    | _ => cases hv
  | replaced a m b n =>
    cases h' with
    | replaced a' m' b' n' =>
      injection hv with h1 h2 h3
      subst h2 h3
      obtain ⟨rfl, -, rfl⟩ := cut_size2 hs (Range.mk.inj h1).1 rfl
      rfl
    | _ => cases hv

theorem all_forward {s t t' : Str} {vs : List Event} (h : SaysAll s vs t) (h' : SaysAll s vs t') : t = t' := by
  induction h generalizing t' with
  | nil => cases h'; rfl
  | cons h1 _ ih =>
    cases h' with
    | cons k1 k2 => obtain rfl := says_forward h1 k1; exact ih k2

theorem all_back {s s' t : Str} {vs : List Event} (h : SaysAll s vs t) (h' : SaysAll s' vs t) : s = s' := by
  induction h generalizing s' with
  | nil => cases h'; rfl
  | cons h1 _ ih =>
    cases h' with
    | cons k1 k2 => obtain rfl := ih k2; exact says_back h1 k1

theorem all_told {d : Doc} {cs : List Call} (h : Edits d cs) : SaysAll d.text (toldAll d cs) (cs.foldl Call.run d).text := by
  induction h with
  | nil d => exact .nil _
  | @cons d e cs hc _ ih =>
    rw [List.foldl_cons, toldAll]
    rcases C168_edit_partial d e hc with ⟨-, v, hv, hs⟩ | ⟨hr, hv⟩
    · rw [hv]
      exact .cons hs ih
    · rw [hv, List.nil_append]
      have : Call.run d (.edit e) = d := by show (e.run d).2 = d; rw [hr]
      rw [this] at ih ⊢
      exact ih

/-- **C168, partial.** Whoever has the text at first and hears the events of any edits has the text at last, and the other way round.

Missing: edits that begin or end within a character, undoing, redoing and commands (see below). -/
theorem C168_follow_partial {d : Doc} {cs : List Call} (h : Edits d cs) :
    (∀ t, SaysAll d.text (toldAll d cs) t ↔ t = (cs.foldl Call.run d).text) ∧
    (∀ s, SaysAll s (toldAll d cs) (cs.foldl Call.run d).text ↔ s = d.text) := by
  have k := all_told h
  refine ⟨fun t => ⟨fun h' => all_forward h' k, ?_⟩, fun s => ⟨fun h' => all_back h' k, ?_⟩⟩
  · rintro rfl; exact k
  · rintro rfl; exact k

example : Edits exDoc [.edit (.insert 1 "x".toList), .edit (.delete ⟨2, 9⟩), .edit (.delete ⟨2, 4⟩)] ∧
    toldAll exDoc [.edit (.insert 1 "x".toList), .edit (.delete ⟨2, 9⟩), .edit (.delete ⟨2, 4⟩)] =
      [.inserted 1 "x".toList 1, .deleted ⟨2, 4⟩ "é".toList] := by
  refine ⟨.cons (.inl ⟨"h".toList, "éllo".toList, rfl, rfl⟩) (.cons (.inr (by decide)) (.cons (.inl ⟨⟨"hx".toList, "éllo".toList, by decide, rfl⟩,
    ⟨"hxé".toList, "llo".toList, by decide, rfl⟩, by decide⟩) (.nil _))), by decide +kernel⟩

/-- **C168, disagreement.** An edit within a character is told with a place where it was not made: something put within the only character
lands before it, the event says within. -/
theorem C168_within_violated : ∃ d : Doc, ∃ v, told d (.edit (.insert 1 "x".toList)) = [v] ∧ ((Edit.insert 1 "x".toList).run d).1 = .ok () ∧
    ¬ Says d.text v ((Edit.insert 1 "x".toList).run d).2.text := by
  refine ⟨⟨"é".toList, Stack.new ⟨50, 0, 100⟩⟩, .inserted 1 "x".toList 1, by decide +kernel, by decide +kernel, ?_⟩
  generalize ((Edit.insert 1 "x".toList).run ⟨"é".toList, Stack.new ⟨50, 0, 100⟩⟩).2.text = u
  intro h
  generalize hv : Event.inserted 1 "x".toList 1 = v at h
  generalize hs : (⟨"é".toList, Stack.new ⟨50, 0, 100⟩⟩ : Doc).text = s at h
  cases h with
  | inserted a b t =>
    injection hv with h1
    cases a with
    | nil => cases h1
    | cons c a =>
      obtain ⟨rfl, -⟩ := List.cons.inj (hs : 'é' :: [] = c :: (a ++ b))
      have h1 : 1 = byteLen ('é' :: a) := h1
      rw [byteLen_cons, show Char.utf8Size 'é' = 2 by decide] at h1
      omega
  | deleted => cases hv
  | replaced => cases hv

/-- **C168, disagreement.** Undoing, redoing and executing a command are not told, though they change the text. -/
theorem C168_silent_violated (d : Doc) :
    told d .undo = [] ∧ told d .redo = [] ∧ (∀ p t, told d (.execInsert p t) = []) ∧ (∀ r, told d (.execDelete r) = []) ∧
    ∃ d' : Doc, Reachable d' ∧ d'.undo.1 = .ok () ∧ d'.undo.2.text ≠ d'.text := by
  refine ⟨rfl, rfl, fun _ _ => rfl, fun _ => rfl, ?_⟩
  exact ⟨Call.run exDoc (.edit (.insert 1 "x".toList)), .step _ _ (.init _ _), by decide +kernel, by decide +kernel⟩

/-- **C168.** A long incremental edit of whole characters that succeeds is told, with the text that was there before. -/
theorem C168_long (dbg : Section → Str) (d : IDoc) {a m b : Str} (new : Str) (h : d.text = a ++ m ++ b) (hl : ¬ Short m new) (hu : ¬ Unfit d a m) :
    ∃ v, toldInc dbg d (place a m) new = [v] ∧ Says d.text v (IncEdit.edit dbg d (place a m) new).2.text := by
  obtain ⟨δ, h1, h2⟩ := (C118_text dbg d new h).1 (.inr hu)
  refine ⟨.replaced (place a m) m new, ?_, ?_⟩
  · rw [edit_long dbg d hl] at h1
    unfold toldInc
    rw [if_neg (fun hs => hl ((IncEdit.simple_iff a m new).1 hs))]
    have : textRange d.text (place a m) = .ok m := by rw [h]; exact textRange_at a m b
    rw [this]
    cases hp : IncEdit.longPath dbg d (place a m) new with
    | mk o d' =>
      rw [hp] at h1
      dsimp only at h1
      subst h1
      rfl
  · rw [h2, h]
    exact .replaced a m b new

example : ¬ Short [] hundred ∧ ¬ Unfit (IDoc.fromContent []) [] [] := by
  refine ⟨hundred_long [], ?_⟩
  rintro ⟨c, hc, -, hn⟩
  cases hc
  exact hn ⟨⟨[], [], rfl, rfl⟩, ⟨[], [], rfl, rfl⟩⟩

/-- **C168, disagreement.** A short incremental edit, the one made at every key, changes the text and is not told. -/
theorem C168_short_violated (dbg : Section → Str) (d : IDoc) {a m b : Str} (new : Str) (h : d.text = a ++ m ++ b) (hs : Short m new) :
    toldInc dbg d (place a m) new = [] ∧ (IncEdit.edit dbg d (place a m) new).2.text = a ++ new ++ b := by
  refine ⟨?_, ((C118_text dbg d new h).1 (.inl hs)).choose_spec.2⟩
  obtain ⟨h1, h2⟩ := IncEdit.cut_at a m b
  rw [← h] at h1 h2
  unfold toldInc
  rw [if_pos ((IncEdit.simple_iff a m new).2 hs), if_neg (by simp [IncEdit.cut_bound.2 h1, IncEdit.cut_bound.2 h2])]

/-- **C168.** The range of an event: where the inserted text now stands; where the deleted or replaced text stood before. -/
theorem C168_range {s t : Str} {v : Event} (h : Says s v t) :
    ∃ r, v.affectedRange = some r ∧ v.isModification = true ∧ v.affectsText = true ∧
      ((∀ p x n, v = .inserted p x n → textRange t r = .ok x) ∧ (∀ q x, v = .deleted q x → textRange s r = .ok x) ∧
       (∀ q x y, v = .replaced q x y → textRange s r = .ok x)) := by
  cases h with
  | inserted a b x =>
    refine ⟨_, rfl, rfl, rfl, ?_, by simp, by simp⟩
    rintro p y n hv
    injection hv with h1 h2
    subst h2
    rw [new_of_le (by omega)]
    exact textRange_at a x b
  | deleted a m b =>
    refine ⟨_, rfl, rfl, rfl, by simp, ?_, by simp⟩
    rintro q x hv
    injection hv with h1 h2
    subst h2
    exact textRange_at a m b
  | replaced a m b n =>
    refine ⟨_, rfl, rfl, rfl, by simp, by simp, ?_⟩
    rintro q x y hv
    injection hv with h1 h2
    subst h2
    exact textRange_at a m b

example : (Event.inserted 1 "é".toList 2).affectedRange = some ⟨1, 3⟩ := by decide

/-- **C168, disagreement.** The range of a replacement is not where the new text stands, as that of an insertion is. -/
theorem C168_range_violated : ∃ s t v r, Says s v t ∧ v = .replaced r "b".toList "xyz".toList ∧ v.affectedRange = some r ∧
    textRange t r = .ok "x".toList :=
  ⟨_, _, _, _, .replaced "a".toList "b".toList "c".toList "xyz".toList, rfl, rfl, by decide +kernel⟩

/-- The event is one a client has made up. -/
def IsCustom (v : Event) : Prop := ∃ t d, v = .custom t d

/-- The kind of an event, by number. -/
def kindOf : Event → Nat
  | .inserted .. => 0 | .deleted .. => 1 | .replaced .. => 2 | .selection .. => 3 | .cursor .. => 4 | .saved .. => 5 | .loaded .. => 6
  | .undone .. => 7 | .redone .. => 8 | .validated .. => 9 | .searched .. => 10 | .parsed .. => 11 | .extension .. => 12 | .config .. => 13
  | .custom .. => 14

/-- The names of the kinds. -/
def names : List Str :=
  ["TextInserted".toList, "TextDeleted".toList, "TextReplaced".toList, "SelectionChanged".toList, "CursorMoved".toList, "DocumentSaved".toList,
   "DocumentLoaded".toList, "UndoPerformed".toList, "RedoPerformed".toList, "ValidationCompleted".toList, "SearchCompleted".toList,
   "ParsingCompleted".toList, "ExtensionChanged".toList, "ConfigChanged".toList]

theorem names_table : (List.range 14).all (fun i => (List.range 14).all (fun j => i == j || names.getD i [] != names.getD j [])) = true := by
  decide +kernel

theorem name_eq {v : Event} (h : ¬ IsCustom v) : kindOf v < 14 ∧ v.typeName = names.getD (kindOf v) [] := by
  cases v with
  | custom t d => exact absurd ⟨t, d, rfl⟩ h
  | _ => exact ⟨by dsimp only [kindOf]; omega, rfl⟩

/-- **C168, partial.** A filter that asks for a kind of event by its name lets through the events of that kind and no others; a filter for
modifications lets through whatever tells of a change of the text.

Missing: events made up by a client (`C168_custom_violated`). -/
theorem C168_kinds_partial {v w : Event} (hv : ¬ IsCustom v) (hw : ¬ IsCustom w) :
    ((⟨[v.typeName], [], none, none⟩ : Events.Filter).accepts w.seen = true ↔ kindOf w = kindOf v) ∧
    ((⟨[], [v.typeName], none, none⟩ : Events.Filter).accepts w.seen = true ↔ kindOf w ≠ kindOf v) ∧
    (∀ s t, Says s w t → (⟨[], [], some true, some false⟩ : Events.Filter).accepts w.seen = true) := by
  have key : w.typeName = v.typeName ↔ kindOf w = kindOf v := by
    obtain ⟨a1, a2⟩ := name_eq hv
    obtain ⟨b1, b2⟩ := name_eq hw
    rw [a2, b2]
    constructor
    · intro h
      have t := List.all_eq_true.1 (List.all_eq_true.1 names_table _ (List.mem_range.2 b1)) _ (List.mem_range.2 a1)
      rw [h] at t
      simpa using t
    · intro h; rw [h]
  refine ⟨?_, ?_, ?_⟩
  · rw [← key]
    simp [Events.Filter.accepts, Event.seen]
  · rw [Ne, ← key]
    simp [Events.Filter.accepts, Event.seen]
  · intro s t h
    cases h <;> rfl

example : ¬ IsCustom (.cursor 1 2) := by rintro ⟨t, d, h⟩; cases h

/-- **C168, disagreement.** An event made up by a client under the name of another kind passes for it, without being a modification. -/
theorem C168_custom_violated :
    (⟨["TextInserted".toList], [], none, none⟩ : Events.Filter).accepts (Event.custom "TextInserted".toList []).seen = true ∧
    (Event.custom "TextInserted".toList []).isModification = false := by decide +kernel

end Verif.Props.Follow
