import Verif.Lemmas.DeltaApply
import Verif.Spec.Update
import Verif.Lemmas.ParserMain
/-!
# C98: applying section deltas to an editor document
-/
namespace Verif.Props
open Verif Verif.Doc Verif.Pos Verif.DeltaApply
open Verif.Spec.DeltaApply
open Verif.Update (Kind)
open Verif.Spec.Update (kindOf)

private theorem kindOf_eq : kindOf = Update.kind := by
  funext s
  cases s <;> rfl

/-- C98, partial: in a document whose section headers occur only at the start of its sections, one of each kind,
a delta removes the sections it names, gives the modified ones their new text, leaves every other character as it
is and puts each added text on lines of its own at the end.  Indices past the last section do nothing.  Missing:
documents with several sections of a kind, with old style sections, or with header text elsewhere. -/
theorem C98_apply_partial (doc : Doc) (D : Document) (hD : D.Clean) (ht : doc.text = D.text) {sc : Parser.Script}
    (hp : Parser.parse doc.text = some sc) (hk : sc.sections.map kindOf = D.secs.map (·.1)) (δ : Delta) (e : Entry)
    (hr : δ.removed.Nodup) (hm : (δ.modified.map (·.1)).Nodup) (hd : ∀ p ∈ δ.modified, p.1 ∉ δ.removed)
    (hs : ∀ p ∈ δ.modified, ∀ k, (D.secs.map (·.1))[p.1]? = some k → IsSection k p.2) :
    (apply doc δ e).1 = .ok () ∧
    (apply doc δ e).2.text =
      δ.added.foldl onOwnLines (Document.text ⟨D.pre, changed δ.removed δ.modified 0 D.secs⟩) := by
  have htext : applyText doc.text δ =
      (.ok (), δ.added.foldl onOwnLines (Document.text ⟨D.pre, changed δ.removed δ.modified 0 D.secs⟩)) := by
    unfold applyText
    rw [hp]
    rw [kindOf_eq] at hk
    dsimp only
    rw [hk]
    have hstart : doc.text = D.pre ++ flat (items 0 D.secs) := by rw [ht, flat_items]; rfl
    have hgood : Good (D.secs.map (·.1)) (items 0 D.secs) := by
      constructor
      · intro p hpm
        obtain ⟨j, h1, h2⟩ := mem_items hpm
        rw [Nat.zero_add] at h1
        refine ⟨by rw [List.getElem?_map, h1, h2]; rfl, hD.secs p.2 (List.mem_of_getElem? h2)⟩
      · rw [items_kinds]
        exact hD.once
    obtain ⟨h1, g1⟩ := changeAll_spec hD.pre ((sortDesc δ.removed).map (fun i => (i, none)))
      (by rw [List.map_map]; exact (List.map_id _).symm ▸ nodup_sortDesc hr)
      (by
        intro o ho k _ x hx
        obtain ⟨i, _, rfl⟩ := List.mem_map.1 ho
        cases hx) _ hgood (by
        intro o _ hlt
        obtain ⟨p, hpm, e⟩ := has_items 0 D.secs (j := o.1) (by simpa using hlt)
        exact ⟨p, hpm, by omega⟩)
    obtain ⟨h2, _⟩ := changeAll_spec hD.pre (δ.modified.map (fun p => (p.1, some p.2)))
      (by rw [List.map_map]; exact hm)
      (by
        intro o ho k hkk x hx
        obtain ⟨p, hpm, rfl⟩ := List.mem_map.1 ho
        cases hx
        exact hs p hpm k hkk) _ g1 (by
        intro o ho hlt
        obtain ⟨m, hmm, rfl⟩ := List.mem_map.1 ho
        obtain ⟨p, hpm, e⟩ := has_items 0 D.secs (j := m.1) (by simpa using hlt)
        rw [Nat.zero_add] at e
        refine ⟨p, List.mem_filterMap.2 ⟨p, hpm, ?_⟩, e⟩
        unfold steps
        rw [lookup_removed, if_neg (fun hmem => hd m hmm (e ▸ mem_sortDesc.1 hmem))])
    rw [hstart, h1]
    dsimp only
    rw [h2]
    show (_, addAll _ _) = _
    rw [addAll_eq, flat_changed]
    rfl
  unfold apply
  rw [htext]
  exact ⟨rfl, rfl⟩

/-- C98: a section delta that names nothing changes nothing. -/
theorem C98_nothing (doc : Doc) (e : Entry) : apply doc ⟨[], [], []⟩ e = (.ok (), doc) := by
  obtain ⟨sc, h⟩ := Parser.parse_total doc.text
  unfold apply applyText
  rw [h]
  rfl

/-- C98: whatever happens, applying a delta leaves the undo history as it was. -/
theorem C98_unrecorded (doc : Doc) (δ : Delta) (e : Entry) : (apply doc δ e).2.hist = doc.hist := by
  unfold apply
  split <;> rfl

private def s98 (s : String) : Doc := ⟨s.toList, Stack.new ⟨50, 0, 0⟩⟩

/-- The example document: title, styles and events. -/
private def D98 : Document :=
  ⟨"; made by hand\n".toList,
    [(.info, "[Script Info]\nTitle: A\n\n".toList), (.styles, "[V4+ Styles]\nStyle: D\n".toList),
     (.events, "[Events]\nComment: x".toList)]⟩

private theorem headless_of_no_bracket {s : Str} (h : '[' ∉ s) : Headless s := by
  intro k a b e
  obtain ⟨ps, hps, _⟩ := head_shape k
  rw [hps] at e
  exact h (by rw [e]; simp)

private theorem D98_clean : D98.Clean where
  pre := headless_of_no_bracket (by decide)
  secs := by
    intro p hp
    have : p ∈ [(Kind.info, "[Script Info]\nTitle: A\n\n".toList), (.styles, "[V4+ Styles]\nStyle: D\n".toList),
     (.events, "[Events]\nComment: x".toList)] := hp
    simp only [List.mem_cons, List.not_mem_nil, or_false] at this
    rcases this with rfl | rfl | rfl
    · exact ⟨"\nTitle: A\n\n".toList, by decide, headless_of_no_bracket (by decide)⟩
    · exact ⟨"\nStyle: D\n".toList, by decide, headless_of_no_bracket (by decide)⟩
    · exact ⟨"\nComment: x".toList, by decide, headless_of_no_bracket (by decide)⟩
  once := by decide

/-- The delta of the example: no styles, other events, fonts and graphics added, an index past the end. -/
private def delta98 : Delta :=
  ⟨["[Fonts]".toList, "[Graphics]\n".toList], [(2, "[Events]\nComment: y".toList)], [7, 1]⟩

/-- The hypotheses of `C98_apply_partial` are met and the result is what one expects. -/
example : (apply ⟨D98.text, Stack.new ⟨50, 0, 0⟩⟩ delta98 ⟨.insert 0 [], 0⟩).2.text =
    "; made by hand\n[Script Info]\nTitle: A\n\n[Events]\nComment: y\n[Fonts]\n[Graphics]\n".toList := by
  have hd : (Parser.parse D98.text).map (fun s => s.sections.map kindOf) = some [.info, .styles, .events] := by
    decide +kernel
  cases hp : Parser.parse D98.text with
  | none => rw [hp] at hd; cases hd
  | some sc =>
    rw [hp] at hd
    rw [(C98_apply_partial ⟨D98.text, Stack.new ⟨50, 0, 0⟩⟩ D98 D98_clean rfl hp (Option.some.inj hd) delta98 ⟨.insert 0 [], 0⟩
      (by decide) (by decide) (by decide) (by
        intro p hpm k hk
        rcases List.mem_cons.1 hpm with rfl | h
        · have : k = .events := (Option.some.inj hk).symm
          subst this
          exact ⟨"\nComment: y".toList, by decide, headless_of_no_bracket (by decide)⟩
        · cases h)).2]
    decide

/-- C98, negated: undoing right after an applied delta does not give the text before it back: nothing was recorded,
so there is nothing to undo. -/
theorem C98_undo_violated : ¬ ∀ (doc : Doc) (δ : Delta) (e : Entry), (apply doc δ e).1 = .ok () →
    (apply doc δ e).2.text ≠ doc.text →
    (apply doc δ e).2.undo.1 = .ok () ∧ (apply doc δ e).2.undo.2.text = doc.text := by
  intro h
  have := (h (s98 "[Events]\n") ⟨[], [], [0]⟩ ⟨.insert 0 [], 0⟩ (by decide +kernel) (by decide +kernel)).1
  revert this
  decide +kernel

/-- C98, negated: when an earlier edit is in the history, undoing after a delta takes the earlier edit's place in
the changed text: here the comment added by the delta loses letters although the edit being undone was in the name
of the font, which the delta had moved. -/
theorem C98_undo_earlier_violated : ¬ ∀ (doc : Doc) (δ : Delta) (e : Entry), (apply doc δ e).1 = .ok () →
    (apply doc δ e).2.undo.1 = .ok () →
    (apply doc δ e).2.undo.2.text = doc.text ∨ (apply doc δ e).2.undo.2.text = (apply doc.undo.2 δ e).2.text := by
  intro h
  have := h ((s98 "[Events]\n[Fonts]\nfontname: a.ttf\n").insert 27 "bc".toList).2 ⟨["; end of the file".toList], [], [0]⟩ ⟨.insert 0 [], 0⟩
    (by decide +kernel) (by decide +kernel)
  revert this
  decide +kernel

/-- C98, negated: a delta that fails has already changed the text: the events are gone when the old style section
is not found under its new name. -/
theorem C98_atomic_violated : ¬ ∀ (doc : Doc) (δ : Delta) (e : Entry), (apply doc δ e).1 = .err →
    (apply doc δ e).2.text = doc.text := by
  intro h
  have := h (s98 "[V4 Styles]\nStyle: D\n[Events]\nComment: x\n") ⟨[], [], [0, 1]⟩ ⟨.insert 0 [], 0⟩ (by decide +kernel)
  revert this
  decide +kernel

/-- C98, negated: removing one of two sections of a kind removes both. -/
theorem C98_duplicate_violated : ¬ ∀ (doc : Doc) (i : Nat) (e : Entry) (sc : Parser.Script), Parser.parse doc.text = some sc →
    i < sc.sections.length → (apply doc ⟨[], [], [i]⟩ e).1 = .ok () →
    (Parser.parse (apply doc ⟨[], [], [i]⟩ e).2.text).map (fun s => s.sections.map kindOf) =
      some ((sc.sections.map kindOf).eraseIdx i) := by
  intro h
  have hd : (Parser.parse (s98 "[Events]\nComment: x\n[Events]\nComment: y\n").text).map (fun s => s.sections.map kindOf) =
    some [.events, .events] := by decide +kernel
  cases hp : Parser.parse (s98 "[Events]\nComment: x\n[Events]\nComment: y\n").text with
  | none => rw [hp] at hd; cases hd
  | some sc =>
    rw [hp] at hd
    have hd' : sc.sections.map kindOf = [.events, .events] := Option.some.inj hd
    have hl : sc.sections.length = 2 := by
      have := congrArg List.length hd'
      rwa [List.length_map] at this
    have := h _ 1 ⟨.insert 0 [], 0⟩ sc hp (by omega) (by decide +kernel)
    rw [hd'] at this
    revert this
    decide +kernel

/-- C98, negated: a header named in a comment is taken for the section: removing the events cuts the script
information off and leaves the events. -/
theorem C98_comment_violated : ¬ ∀ (doc : Doc) (i : Nat) (e : Entry) (sc : Parser.Script), Parser.parse doc.text = some sc →
    (sc.sections.map kindOf).Nodup → i < sc.sections.length → (apply doc ⟨[], [], [i]⟩ e).1 = .ok () →
    (Parser.parse (apply doc ⟨[], [], [i]⟩ e).2.text).map (fun s => s.sections.map kindOf) =
      some ((sc.sections.map kindOf).eraseIdx i) := by
  intro h
  have hd : (Parser.parse (s98 "[Script Info]\n; [Events] below\nTitle: A\n[V4+ Styles]\nStyle: D\n[Events]\nComment: y\n").text).map (fun s => s.sections.map kindOf) =
    some [.info, .styles, .events] := by decide +kernel
  cases hp : Parser.parse (s98 "[Script Info]\n; [Events] below\nTitle: A\n[V4+ Styles]\nStyle: D\n[Events]\nComment: y\n").text with
  | none => rw [hp] at hd; cases hd
  | some sc =>
    rw [hp] at hd
    have hd' : sc.sections.map kindOf = [.info, .styles, .events] := Option.some.inj hd
    have hl : sc.sections.length = 3 := by
      have := congrArg List.length hd'
      rwa [List.length_map] at this
    have := h _ 2 ⟨.insert 0 [], 0⟩ sc hp (by rw [hd']; decide) (by omega) (by decide +kernel)
    rw [hd'] at this
    revert this
    decide +kernel

end Verif.Props
