import Verif.Lemmas.UpdateX
import Verif.Lemmas.Sort
/-! Properties C41, C73 (order) and C86–C89: changing a parsed script, and telling what changed. -/
namespace Verif.Props
open Verif
open Verif.Ast
open Verif.Parser
open Verif.Update
open Verif.Spec.Update
open Verif.Spec.InfoCmd (Stripped)

/-- What holds of the script that a concrete source gives. -/
theorem of_parsed {src : Str} {P : Script → Bool} (h : (parse src).any P = true) : ∃ s, parse src = some s ∧ P s = true := by
  cases hp : parse src with
  | none => rw [hp] at h; cases h
  | some s => rw [hp] at h; exact ⟨s, rfl, h⟩

/-- A script with a field, two styles and two events. -/
def small : Str :=
  ("[Script Info]\nTitle: a\n[V4+ Styles]\nFormat: Name, Fontname, Fontsize\nStyle: A,Arial,9\nStyle: B,Arial,8\n[Events]\n" ++
  "Format: Layer, Start, End, Style, Text\nDialogue: 0,0:00:01.00,0:00:02.00,A,one\nComment: 0,0:00:03.00,0:00:04.00,B,two\n").toList

/-! ## C73: the order of places -/

/-- **C73 (order).** Whatever the source, the places given for fields, styles, events and embedded files never overlap, and
come in the order of the sections and of their lines. -/
theorem C73_order {src : Str} {s : Script} (h : parse src = some s) : Ordered (s.sections.flatMap places) := parse_ordered h

example : ∃ s, parse small = some s ∧ (s.sections.flatMap places).map (fun p => (p.start, p.stop)) =
    [(14, 23), (69, 85), (86, 102), (151, 190), (191, 229)] := by
  obtain ⟨s, h1, h2⟩ := of_parsed (src := small)
    (P := fun s => decide ((s.sections.flatMap places).map (fun p => (p.start, p.stop)) =
    [(14, 23), (69, 85), (86, 102), (151, 190), (191, 229)])) (by decide +kernel)
  exact ⟨s, h1, by simpa using h2⟩

/-! ## C41 -/

/-- **C41.** An atomic batch that fails leaves the script as it was, with the record of changes.  One that succeeds has made
all its updates, in the order given, and then put the styles and the events where they belong; nothing else has changed.  It
succeeds exactly if each update by itself names a place in some section and has a line that can be read, and the updates can
be made one after the other. -/
theorem C41_atomic (s : Scr) (ops : List Op) (st : Option (List (Style × Span))) (ev : Option (List (Event × Span))) :
    (∀ e, (atomic s ops st ev).2 = .error e → (atomic s ops st ev).1 = s) ∧
    ((atomic s ops st ev).2 = .ok () → ∃ t m l, Steps s.script ops t ∧ ExtendedBy .styles st t.sections m ∧ ExtendedBy .events ev m l ∧
      (atomic s ops st ev).1.script = withSecs t l) ∧
    ((atomic s ops st ev).2 = .ok () ↔
      (∀ op ∈ ops, (∃ sec ∈ s.script.sections, Spanned op.offset sec) ∧ ∃ c, Reads s.script op.number op.line c) ∧ ∃ t, Steps s.script ops t) := by
  unfold atomic
  cases hv : validate s ops with
  | error e =>
    refine ⟨fun _ _ => rfl, fun h => (by cases h), ?_⟩
    constructor
    · intro h; cases h
    · rintro ⟨h, _⟩
      rw [validate_ok.2 h] at hv
      cases hv
  | ok u =>
    have hv' := validate_ok.1 hv
    cases ha : applyAll ops s with
    | mk t r =>
      cases r with
      | error e =>
        refine ⟨fun _ _ => rfl, fun h => (by cases h), ?_⟩
        constructor
        · intro h; cases h
        · rintro ⟨_, t', h⟩
          obtain ⟨t2, h2, _⟩ := steps_applyAll h (s := s) rfl
          rw [h2] at ha
          cases ha
      | ok v =>
        have hs := applyAll_ok ha
        refine ⟨fun e h => (by cases h), fun _ => ?_, fun _ => ⟨hv', _, hs⟩, fun _ => rfl⟩
        obtain ⟨m, h1, h2, h3⟩ := additions_spec t st ev
        exact ⟨t.script, m, _, hs, h1, h2, h3⟩

/-- The first event and the style B changed, and a style added. -/
def batch : List Op := [⟨160, "Dialogue: 0,0:00:05.00,0:00:06.00,A,three".toList, 1⟩, ⟨75, "Style: C,Arial,7".toList, 2⟩]

example : ∃ s, parse small = some s ∧ (atomic ⟨s, [], true⟩ batch none (some [])).2.isOk = true ∧
    (atomic ⟨s, [], true⟩ (batch ++ [⟨75, "Style".toList, 3⟩]) none none).2.isOk = false := by
  obtain ⟨s, h1, h2⟩ := of_parsed (src := small)
    (P := fun s => (atomic ⟨s, [], true⟩ batch none (some [])).2.isOk && !(atomic ⟨s, [], true⟩ (batch ++ [⟨75, "Style".toList, 3⟩]) none none).2.isOk)
    (by decide +kernel)
  rw [Bool.and_eq_true, Bool.not_eq_true'] at h2
  exact ⟨s, h1, h2.1, h2.2⟩

/-- **C86, disagreement.** An atomic batch of updates each of which can be made by itself, at places of different lines, is refused:
when the last line of a section has been updated, the other lines of the section are not found any more. -/
theorem C86_refused_violated : ∃ s, parse small = some s ∧ ∃ a b : Op,
    (updateLine ⟨s, [], false⟩ a.offset a.line a.number).2.isOk = true ∧
    (updateLine ⟨s, [], false⟩ b.offset b.line b.number).2.isOk = true ∧
    (atomic ⟨s, [], false⟩ [a, b] none none).2.isOk = false := by
  obtain ⟨s, h1, h2⟩ := of_parsed (src := small)
    (P := fun s => (updateLine ⟨s, [], false⟩ 200 "Comment: 0,0:00:05.00,0:00:06.00,A,three".toList 1).2.isOk &&
      (updateLine ⟨s, [], false⟩ 160 "Comment: 0,0:00:05.00,0:00:06.00,A,three".toList 1).2.isOk &&
      !(atomic ⟨s, [], false⟩ [⟨200, "Comment: 0,0:00:05.00,0:00:06.00,A,three".toList, 1⟩,
        ⟨160, "Comment: 0,0:00:05.00,0:00:06.00,A,three".toList, 1⟩] none none).2.isOk) (by decide +kernel)
  rw [Bool.and_eq_true, Bool.and_eq_true, Bool.not_eq_true'] at h2
  exact ⟨s, h1, ⟨200, "Comment: 0,0:00:05.00,0:00:06.00,A,three".toList, 1⟩, ⟨160, "Comment: 0,0:00:05.00,0:00:06.00,A,three".toList, 1⟩,
    h2.1.1, h2.1.2, h2.2⟩

/-! ## C86 -/

/-- **C86 (general form).** An update that fails changes nothing.  One that succeeds is a `Step`: the line is read with the
formats of the script, and in the first section around the offset it takes the place of the line there (or of the field of
that name), which is given back; everything else is as before.  And whenever there is such a step, the update succeeds. -/
theorem C86_update (s : Scr) (op : Op) :
    (∀ s' e, updateLine s op.offset op.line op.number = (s', .error e) → s' = s) ∧
    (∀ s' old, updateLine s op.offset op.line op.number = (s', .ok old) → Step s.script op old s'.script ∧ s'.enabled = s.enabled) ∧
    (∀ old t, Step s.script op old t → ∃ s', updateLine s op.offset op.line op.number = (s', .ok old) ∧ s'.script = t) := by
  refine ⟨fun s' e h => updateLine_err h, fun s' old h => ⟨ok_step h, ?_⟩, fun old t h => step_ok h⟩
  obtain ⟨_, _, _, _, _, _, _, _, _, _, h6⟩ := updateLine_ok h
  rw [h6]

example : ∃ s, parse small = some s ∧ (∃ old t, Step s ⟨75, "Style: C,Arial,7".toList, 2⟩ old t) := by
  obtain ⟨s, h1, h2⟩ := of_parsed (src := small)
    (P := fun s => match updateLine ⟨s, [], false⟩ 75 "Style: C,Arial,7".toList 2 with | (_, .ok _) => true | _ => false) (by decide +kernel)
  refine ⟨s, h1, ?_⟩
  cases hu : updateLine ⟨s, [], false⟩ 75 "Style: C,Arial,7".toList 2 with
  | mk s' r =>
    cases r with
    | error e => rw [hu] at h2; cases h2
    | ok old => exact ⟨old, s'.script, ok_step (s := ⟨s, [], false⟩) (op := ⟨75, "Style: C,Arial,7".toList, 2⟩) hu⟩

/-- **C86 (events).** In a script whose places are in order (every parsed one, by `C73_order`), an offset in the line of an
event and a line that reads as an event: exactly that event is replaced, and given back.
Missing: lines that were updated before, and those after the last of a section (`C86_again_violated`, `C86_last_violated`), and
fields (`C86_field_violated`). -/
theorem C86_event_partial {s : Scr} {A B : List Section} {a b : List (Event × Span)} {e e' : Event} {sp : Span} {o n : Nat} {line x : Str}
    (hord : Ordered (s.script.sections.flatMap places)) (hs : s.script.sections = A ++ .events (a ++ (e, sp) :: b) :: B) (ho : Within o sp)
    (hx : Stripped line x) (he : parseEvent x (s.script.eventsFmt.getD eventFormat) = some e') :
    updateLine s o line n = (⟨withSecs s.script (A ++ .events (a ++ (e', nowhere n) :: b) :: B),
      if s.enabled then s.changes ++ [.modified o (.event (e, sp)) (.event (e', nowhere n)) n] else s.changes, s.enabled⟩, .ok (.event (e, sp))) := by
  rw [hs] at hord
  obtain ⟨h1, h2, h3⟩ := ordered_find (P := a.map (fun x : Event × Span => x.2)) (Q := b.map (fun x : Event × Span => x.2)) hord (by simp [places]) ho
  exact updateLine_step hs h1 h2 (.event hx he) (.event (fun x hx => h3 x.2 (List.mem_map.2 ⟨x, hx, rfl⟩)) ho)

example : ∃ s, parse small = some s ∧ ∃ A a e sp b B, s.sections = A ++ .events (a ++ (e, sp) :: b) :: B ∧ Within 160 sp ∧
    ∃ e', parseEvent "Comment: 0,0:00:05.00,0:00:06.00,A,three".toList (s.eventsFmt.getD eventFormat) = some e' := by
  obtain ⟨s, h1, h2⟩ := of_parsed (src := small)
    (P := fun s => match s.sections with
      | [i, st, .events [(e, sp), y]] => decide (sp.start ≤ 160) && decide (160 < sp.stop) &&
        (parseEvent "Comment: 0,0:00:05.00,0:00:06.00,A,three".toList (s.eventsFmt.getD eventFormat)).isSome
      | _ => false) (by decide +kernel)
  refine ⟨s, h1, ?_⟩
  split at h2
  · rename_i i st e sp y heq
    rw [Bool.and_eq_true, Bool.and_eq_true, decide_eq_true_eq, decide_eq_true_eq] at h2
    exact ⟨[i, st], [], e, sp, [y], [], heq, h2.1, Option.isSome_iff_exists.1 h2.2⟩
  · cases h2

/-- **C86 (styles).** The same for styles.
Missing: lines that were updated before, and those after the last of a section (`C86_again_violated`, `C86_last_violated`). -/
theorem C86_style_partial {s : Scr} {A B : List Section} {a b : List (Style × Span)} {e e' : Style} {sp : Span} {o n : Nat} {line d d' : Str}
    (hord : Ordered (s.script.sections.flatMap places)) (hs : s.script.sections = A ++ .styles (a ++ (e, sp) :: b) :: B) (ho : Within o sp)
    (hx : Stripped line ("Style:".toList ++ d)) (hd : Stripped d d') (he : parseStyle d' (s.script.stylesFmt.getD styleFormat) = some e') :
    updateLine s o line n = (⟨withSecs s.script (A ++ .styles (a ++ (e', nowhere n) :: b) :: B),
      if s.enabled then s.changes ++ [.modified o (.style (e, sp)) (.style (e', nowhere n)) n] else s.changes, s.enabled⟩, .ok (.style (e, sp))) := by
  rw [hs] at hord
  obtain ⟨h1, h2, h3⟩ := ordered_find (P := a.map (fun x : Style × Span => x.2)) (Q := b.map (fun x : Style × Span => x.2)) hord (by simp [places]) ho
  exact updateLine_step hs h1 h2 (.style hx hd he) (.style (fun x hx => h3 x.2 (List.mem_map.2 ⟨x, hx, rfl⟩)) ho)

/-- **C86 (batches).** A batch of updates is tried in the order of the offsets (those of one offset in the order given), each
on what the one before left; those that cannot be made are left out and reported, and every offset is reported exactly once. -/
theorem C86_batch (s : Scr) (ops : List Op) : ∃ ops' : List Op, ops'.Perm ops ∧ ops'.Pairwise (fun a b => a.offset ≤ b.offset) ∧
    Tried s.script ops' (batchUpdate s ops).2.1 ((batchUpdate s ops).2.2.map (·.1)) (batchUpdate s ops).1.script ∧
    ((batchUpdate s ops).2.1.map (·.1) ++ (batchUpdate s ops).2.2.map (·.1)).Perm (ops.map (·.offset)) := by
  obtain ⟨up, fl, h1, h2, h3⟩ := batchLoop_tried (sortKey (·.offset) ops) s [] []
  have h1' : (batchUpdate s ops).2.1 = up := h1
  have h2' : (batchUpdate s ops).2.2 = fl := h2
  rw [h1', h2']
  exact ⟨_, sortKey_perm _ _, sortKey_sorted _ _, h3, (tried_offsets h3).trans ((sortKey_perm _ _).map _)⟩

example : ∃ s, parse small = some s ∧ ((batchUpdate ⟨s, [], false⟩ (batch ++ [⟨80, "Style".toList, 1⟩])).2.1.map (·.1)) = [75, 160] ∧
    ((batchUpdate ⟨s, [], false⟩ (batch ++ [⟨80, "Style".toList, 1⟩])).2.2.map (·.1)) = [80] := by
  obtain ⟨s, h1, h2⟩ := of_parsed (src := small)
    (P := fun s => decide (((batchUpdate ⟨s, [], false⟩ (batch ++ [⟨80, "Style".toList, 1⟩])).2.1.map (·.1)) = [75, 160] ∧
      ((batchUpdate ⟨s, [], false⟩ (batch ++ [⟨80, "Style".toList, 1⟩])).2.2.map (·.1)) = [80])) (by decide +kernel)
  exact ⟨s, h1, of_decide_eq_true h2⟩

/-- **C86, disagreement.** A line that has been updated cannot be updated again at the same offset. -/
theorem C86_again_violated : ∃ s, parse small = some s ∧ ∃ t old,
    updateLine ⟨s, [], false⟩ 75 "Style: C,Arial,7".toList 2 = (t, .ok old) ∧ (updateLine t 75 "Style: D,Arial,7".toList 2).2.isOk = false := by
  obtain ⟨s, h1, h2⟩ := of_parsed (src := small)
    (P := fun s => match updateLine ⟨s, [], false⟩ 75 "Style: C,Arial,7".toList 2 with
      | (t, .ok _) => !(updateLine t 75 "Style: D,Arial,7".toList 2).2.isOk
      | _ => false) (by decide +kernel)
  refine ⟨s, h1, ?_⟩
  cases hu : updateLine ⟨s, [], false⟩ 75 "Style: C,Arial,7".toList 2 with
  | mk t r =>
    rw [hu] at h2
    cases r with
    | error e => cases h2
    | ok old =>
      simp only [Bool.not_eq_true'] at h2
      exact ⟨t, old, rfl, h2⟩

/-- **C86, disagreement.** When the last line of a section has been updated, no other line of that section can be. -/
theorem C86_last_violated : ∃ s, parse small = some s ∧ (updateLine ⟨s, [], false⟩ 75 "Style: D,Arial,7".toList 2).2.isOk = true ∧ ∃ t old,
    updateLine ⟨s, [], false⟩ 95 "Style: C,Arial,7".toList 2 = (t, .ok old) ∧ (updateLine t 75 "Style: D,Arial,7".toList 2).2.isOk = false := by
  obtain ⟨s, h1, h2⟩ := of_parsed (src := small)
    (P := fun s => (updateLine ⟨s, [], false⟩ 75 "Style: D,Arial,7".toList 2).2.isOk && match updateLine ⟨s, [], false⟩ 95 "Style: C,Arial,7".toList 2 with
      | (t, .ok _) => !(updateLine t 75 "Style: D,Arial,7".toList 2).2.isOk
      | _ => false) (by decide +kernel)
  rw [Bool.and_eq_true] at h2
  obtain ⟨h3, h2⟩ := h2
  refine ⟨s, h1, h3, ?_⟩
  cases hu : updateLine ⟨s, [], false⟩ 95 "Style: C,Arial,7".toList 2 with
  | mk t r =>
    rw [hu] at h2
    cases r with
    | error e => cases h2
    | ok old =>
      simp only [Bool.not_eq_true'] at h2
      exact ⟨t, old, rfl, h2⟩

/-- **C86, disagreement.** A field is not put in the place of the line at the offset: the line there stays, and the field is
changed or added elsewhere in the section. -/
theorem C86_field_violated : ∃ s, parse "[Script Info]\nTitle: a\nAuthor: b\n".toList = some s ∧ ∃ t old,
    updateLine ⟨s, [], false⟩ 15 "Note: c".toList 2 = (t, .ok old) ∧ ∃ sp,
      s.sections = [.info [("Title".toList, "a".toList), ("Author".toList, "b".toList)] sp] ∧ sp.start ≤ 15 ∧
      t.script.sections = [.info [("Title".toList, "a".toList), ("Author".toList, "b".toList), ("Note".toList, "c".toList)] sp] := by
  obtain ⟨s, h1, h2⟩ := of_parsed (src := "[Script Info]\nTitle: a\nAuthor: b\n".toList)
    (P := fun s => decide (s.sections = [.info [("Title".toList, "a".toList), ("Author".toList, "b".toList)] ⟨14, 33, 2, 1⟩] )) (by decide +kernel)
  have h2 := of_decide_eq_true h2
  have h3 : Spanned 15 (.info [("Title".toList, "a".toList), ("Author".toList, "b".toList)] ⟨14, 33, 2, 1⟩) :=
    ⟨⟨14, 33, 2, 1⟩, ⟨14, 33, 2, 1⟩, rfl, rfl, by decide, by decide⟩
  have hr : Reads s 2 "Note: c".toList (.field "Note".toList "c".toList) := parseAuto_iff.1 (by
    show Except.ok _ = _
    rfl)
  have := updateLine_step (s := ⟨s, [], false⟩) (pre := []) (post := []) h2 (by simp) h3 hr
    (.newField (a := [("Title".toList, "a".toList), ("Author".toList, "b".toList)]) (by decide))
  exact ⟨s, h1, _, _, this, ⟨14, 33, 2, 1⟩, h2, by decide, rfl⟩

/-! ## C87 -/

/-- **C87 (updates), partial.** While changes are tracked, a successful update is recorded once, with its offset, its line
number, what was there and what is there now; a new field is recorded as added.  A field that had an empty value is left out
(see `C87_empty_violated`). -/
theorem C87_update_partial {s s' : Scr} {o n : Nat} {line : Str} {old : Content} (h : updateLine s o line n = (s', .ok old))
    (hen : s.enabled = true) : ∃ new, Reads s.script n line new ∧ ((∀ k, old ≠ .field k []) → s'.changes = s.changes ++ [.modified o old new n]) ∧
      ((∃ pre fs sp post k v, s.script.sections = pre ++ .info fs sp :: post ∧ (∀ x ∈ pre, ¬ Spanned o x) ∧ Spanned o (.info fs sp) ∧
        new = .field k v ∧ ∀ f ∈ fs, f.1 ≠ k) → s'.changes = s.changes ++ [.added o new n]) := by
  obtain ⟨pre, sec, sec', post, new, h1, h2, h3, h4, h5, h6⟩ := updateLine_ok h
  refine ⟨new, h4, ?_, ?_⟩
  · intro hne
    subst h6
    show recorded s _ = _
    unfold recorded
    rw [if_pos hen]
    cases h5 with
    | style _ _ => rfl
    | event _ _ => rfl
    | @field a k v b v' sp ha =>
      have : v ≠ [] := fun hv => hne k (by rw [hv])
      unfold recordOf
      simp [this]
    | @newField a k v sp ha => exact absurd rfl (hne k)
  · rintro ⟨pre', fs, sp, post', k, v, g1, g2, g3, rfl, g5⟩
    have hf := findSection_mid (post := post) h2 h3
    rw [← h1, g1, findSection_mid (post := post') g2 g3] at hf
    simp only [Option.some.injEq, Prod.mk.injEq] at hf
    obtain ⟨_, rfl, _⟩ := hf
    subst h6
    show recorded s _ = _
    unfold recorded
    rw [if_pos hen]
    cases h5 with
    | @field a k v b v' sp ha => exact absurd rfl (g5 (k, v) (by simp))
    | @newField a k v sp ha =>
      unfold recordOf
      have : fs.any (fun f => decide (f.1 = k)) = false := by
        rw [List.any_eq_false]; intro f hf; simpa using g5 f hf
      simp [this]

example : ∃ s, parse small = some s ∧ (updateLine ⟨s, [], true⟩ 75 "Style: C,Arial,7".toList 2).2.isOk = true ∧
    (updateLine ⟨s, [], true⟩ 75 "Style: C,Arial,7".toList 2).1.changes.length = 1 := by
  obtain ⟨s, h1, h2⟩ := of_parsed (src := small)
    (P := fun s => (updateLine ⟨s, [], true⟩ 75 "Style: C,Arial,7".toList 2).2.isOk &&
      decide ((updateLine ⟨s, [], true⟩ 75 "Style: C,Arial,7".toList 2).1.changes.length = 1)) (by decide +kernel)
  rw [Bool.and_eq_true, decide_eq_true_eq] at h2
  exact ⟨s, h1, h2.1, h2.2⟩

/-- **C87 (sections).** While changes are tracked, adding a section and removing one are recorded once, and carrying out the
record on the sections before gives the sections after. -/
theorem C87_sections {s : Scr} (hen : s.enabled = true) :
    (∀ sec, (addSection s sec).2 = s.script.sections.length ∧ (addSection s sec).1.script.sections = s.script.sections ++ [sec] ∧
      ∃ c, (addSection s sec).1.changes = s.changes ++ [c] ∧ replay [c] s.script.sections = some (addSection s sec).1.script.sections) ∧
    (∀ i sec s', removeSection s i = (s', .ok sec) → ∃ pre post c, s.script.sections = pre ++ sec :: post ∧ pre.length = i ∧
      s'.script.sections = pre ++ post ∧ s'.changes = s.changes ++ [c] ∧ replay [c] s.script.sections = some s'.script.sections) ∧
    (∀ i s' e, removeSection s i = (s', .error e) → s' = s ∧ s.script.sections.length ≤ i) := by
  obtain ⟨script, changes, enabled⟩ := s
  subst hen
  refine ⟨?_, ?_, ?_⟩
  · intro sec
    refine ⟨rfl, rfl, .sectionAdded sec script.sections.length, rfl, ?_⟩
    have := replay_added (cs := []) (pre := script.sections) (l := []) (s := sec)
    rw [List.append_nil, replay] at this
    exact this
  · intro i sec s' h
    unfold removeSection at h
    cases hi : script.sections[i]? with
    | none => rw [hi] at h; cases h
    | some x =>
      rw [hi] at h
      simp only [Prod.mk.injEq, Except.ok.injEq] at h
      obtain ⟨rfl, rfl⟩ := h
      have hl := (List.getElem?_eq_some_iff.1 hi).1
      have e : script.sections = script.sections.take i ++ x :: script.sections.drop (i + 1) := by
        conv => lhs; rw [← List.take_append_drop i script.sections, List.drop_eq_getElem_cons hl, (List.getElem?_eq_some_iff.1 hi).2]
      have he : (script.sections.eraseIdx i) = script.sections.take i ++ script.sections.drop (i + 1) := List.eraseIdx_eq_take_drop_succ ..
      have ht : (script.sections.take i).length = i := by rw [List.length_take]; omega
      refine ⟨_, _, .sectionRemoved (kind x) i, e, ht, he, rfl, ?_⟩
      have := replay_removed (cs := []) (pre := script.sections.take i) (l := script.sections.drop (i + 1)) (s := x)
      rw [← e, ht, replay, ← he] at this
      exact this
  · intro i s' e h
    unfold removeSection at h
    cases hi : script.sections[i]? with
    | none =>
      rw [hi] at h
      simp only [Prod.mk.injEq] at h
      exact ⟨h.1.symm, List.getElem?_eq_none_iff.1 hi⟩
    | some x => rw [hi] at h; cases h

example : (addSection ⟨⟨.ass4, [.styles []], [], none, none⟩, [], true⟩ (.events [])).1.changes = [.sectionAdded (.events []) 1] ∧
    (removeSection ⟨⟨.ass4, [.styles [], .events []], [], none, none⟩, [], true⟩ 0).1.changes = [.sectionRemoved .styles 0] := by decide

/-- **C87 (off).** While changes are not tracked, nothing is recorded, and tracking never switches itself on or off. -/
theorem C87_off (s : Scr) (h : s.enabled = false) :
    (∀ o l n, (updateLine s o l n).1.changes = s.changes) ∧ (∀ sec, (addSection s sec).1.changes = s.changes) ∧
    (∀ i, (removeSection s i).1.changes = s.changes) ∧ (∀ l, (addStyles s l).1.changes = s.changes) ∧
    (∀ l, (addEvents s l).1.changes = s.changes) := by
  refine ⟨?_, ?_, ?_, fun _ => rfl, fun _ => rfl⟩
  · intro o l n
    cases hu : updateLine s o l n with
    | mk s' r =>
      cases r with
      | error e => rw [updateLine_err hu]
      | ok old =>
        obtain ⟨_, _, _, _, _, _, _, _, _, _, h6⟩ := updateLine_ok hu
        rw [h6]
        simp [recorded, h]
  · intro sec
    simp [addSection, Scr.record, Scr.withSections, h]
  · intro i
    unfold removeSection
    cases s.script.sections[i]? with
    | none => rfl
    | some x => simp [Scr.record, Scr.withSections, h]

example : (addSection ⟨⟨.ass4, [], [], none, none⟩, [], false⟩ (.events [])).1.changes = [] := by decide

/-- **C87, disagreement.** Giving a value to a field that had none is not recorded. -/
theorem C87_empty_violated : ∃ s, parse "[Script Info]\nTitle:\n".toList = some s ∧ ∃ t old,
    updateLine ⟨s, [], true⟩ 15 "Title: c".toList 2 = (t, .ok old) ∧ t.changes = [] ∧ t.script ≠ s := by
  obtain ⟨s, h1, h2⟩ := of_parsed (src := "[Script Info]\nTitle:\n".toList)
    (P := fun s => match updateLine ⟨s, [], true⟩ 15 "Title: c".toList 2 with
      | (t, .ok _) => decide (t.changes = []) && decide (t.script ≠ s)
      | _ => false) (by decide +kernel)
  refine ⟨s, h1, ?_⟩
  cases hu : updateLine ⟨s, [], true⟩ 15 "Title: c".toList 2 with
  | mk t r =>
    rw [hu] at h2
    cases r with
    | error e => cases h2
    | ok old =>
      simp only [Bool.and_eq_true, decide_eq_true_eq] at h2
      exact ⟨t, old, rfl, h2.1, h2.2⟩

/-- **C87, disagreement.** Added styles and events are never recorded, although they change the script. -/
theorem C87_add_violated (s : Scr) (st : Style × Span) (e : Event × Span) :
    (addStyle s st).1.changes = s.changes ∧ (addEvent s e).1.changes = s.changes ∧
    (addStyle s st).1.script.sections ≠ s.script.sections ∧ (addEvent s e).1.script.sections ≠ s.script.sections := by
  refine ⟨rfl, rfl, ?_, ?_⟩
  · intro h
    have := (addStyles_spec s [st]).1
    have hh : (addStyles s [st]).1.script.sections = s.script.sections := h
    rw [hh] at this
    rcases this with ⟨pre, l, post, e1, _, e3⟩ | ⟨_, e2⟩
    · rw [e1] at e3
      simp at e3
    · have := congrArg List.length e2
      simp at this
  · intro h
    have := (addEvents_spec s [e]).1
    have hh : (addEvents s [e]).1.script.sections = s.script.sections := h
    rw [hh] at this
    rcases this with ⟨pre, l, post, e1, _, e3⟩ | ⟨_, e2⟩
    · rw [e1] at e3
      simp at e3
    · have := congrArg List.length e2
      simp at this

/-- **C86 (additions).** Styles and events added are put at the end of the first section of their kind, or in a new section at
the end; nothing else changes, and the positions given are theirs in that section. -/
theorem C86_add (s : Scr) :
    (∀ l, Extended .styles l s.script.sections (addStyles s l).1.script.sections ∧
      (addStyles s l).1.script = withSecs s.script (addStyles s l).1.script.sections ∧
      ∃ pre m post, (addStyles s l).1.script.sections = pre ++ .styles m :: post ∧ (∀ x ∈ pre, ∀ k, x ≠ .styles k) ∧
        (addStyles s l).2.map (fun i => m[i]?) = l.map some) ∧
    (∀ l, Extended .events l s.script.sections (addEvents s l).1.script.sections ∧
      (addEvents s l).1.script = withSecs s.script (addEvents s l).1.script.sections ∧
      ∃ pre m post, (addEvents s l).1.script.sections = pre ++ .events m :: post ∧ (∀ x ∈ pre, ∀ k, x ≠ .events k) ∧
        (addEvents s l).2.map (fun i => m[i]?) = l.map some) := by
  refine ⟨fun l => ⟨(addStyles_spec s l).1, rfl, ?_⟩, fun l => ⟨(addEvents_spec s l).1, rfl, ?_⟩⟩
  · obtain ⟨pre, m, post, h1, h2, h3⟩ := extend_positions (get := asStyles) (mk := .styles) (fun _ => rfl) l s.script.sections
    exact ⟨pre, m, post, h1, fun x hx k hk => (by rw [hk] at hx; cases h2 _ hx), h3⟩
  · obtain ⟨pre, m, post, h1, h2, h3⟩ := extend_positions (get := asEvents) (mk := .events) (fun _ => rfl) l s.script.sections
    exact ⟨pre, m, post, h1, fun x hx k hk => (by rw [hk] at hx; cases h2 _ hx), h3⟩

example : ∃ s, parse small = some s ∧ ∃ x, parseStyle "Z,Arial,3".toList (s.stylesFmt.getD styleFormat) = some x ∧
    (addStyles ⟨s, [], false⟩ [(x, nowhere 0), (x, nowhere 1)]).2 = [2, 3] := by
  obtain ⟨s, h1, h2⟩ := of_parsed (src := small)
    (P := fun s => (parseStyle "Z,Arial,3".toList (s.stylesFmt.getD styleFormat)).any
      (fun x => decide ((addStyles ⟨s, [], false⟩ [(x, nowhere 0), (x, nowhere 1)]).2 = [2, 3]))) (by decide +kernel)
  refine ⟨s, h1, ?_⟩
  cases hx : parseStyle "Z,Arial,3".toList (s.stylesFmt.getD styleFormat) with
  | none => rw [hx] at h2; cases h2
  | some x => rw [hx] at h2; exact ⟨x, rfl, of_decide_eq_true h2⟩

/-! ## C88 -/

/-- **C88 (equal).** Two scripts have no difference exactly if their sections are the same. -/
theorem C88_equal (a b : Scr) : diff a b = [] ↔ a.script.sections = b.script.sections := diffFrom_nil _ _ 0

/-- **C88 (replay), partial.** Carrying out the differences one after the other turns the sections of the other script into
those of this one, if the other has at most one section more.
Missing: scripts with two or more sections more, for which the indices are wrong (`C88_removed_violated`). -/
theorem C88_replay_partial (a b : Scr) (h : b.script.sections.length ≤ a.script.sections.length + 1) :
    replay (diff a b) b.script.sections = some a.script.sections := diffFrom_replay _ _ [] h

example : diff ⟨⟨.ass4, [.styles [], .events []], [], none, none⟩, [], true⟩ ⟨⟨.ass4, [.events [], .fonts [], .styles []], [], none, none⟩, [], true⟩ =
    [.sectionRemoved .events 0, .sectionAdded (.styles []) 0, .sectionRemoved .fonts 1, .sectionAdded (.events []) 1, .sectionRemoved .styles 2] := by
  simp [diff, diffFrom, kind]

/-- **C88, disagreement.** With two sections more in the other script the differences cannot be carried out: the numbers of the
sections to remove do not take into account those removed before. -/
theorem C88_removed_violated : ¬ ∀ a b : Scr, replay (diff a b) b.script.sections = some a.script.sections := by
  intro h
  have := h ⟨⟨.ass4, [], [], none, none⟩, [], true⟩ ⟨⟨.ass4, [.styles [], .events []], [], none, none⟩, [], true⟩
  simp [diff, diffFrom, kind, replay, kindOf] at this

/-! ## C89 -/

/-- **C89 (carried out), partial.** If neither script has two sections of one kind, the delta carried out on the old sections
gives one section of each kind of the new script, that says the same.
Missing: scripts with two sections of one kind (`C89_self_violated`, `C89_second_violated`). -/
theorem C89_carried_partial {old new : Script} (ho : (old.sections.map kindOf).Nodup) (hn : (new.sections.map kindOf).Nodup) :
    ((carried (delta old new) old.sections).map kindOf).Nodup ∧
    (∀ x, x ∈ (carried (delta old new) old.sections).map says ↔ x ∈ new.sections.map says) ∧ (delta old new).issues = new.issues :=
  ⟨carried_nodup ho hn, carried_says hn, rfl⟩

/-- **C89 (empty), partial.** If neither script has two sections of one kind, an empty delta means that both say the same; and
the delta between scripts that say the same, section by section, is empty if the new one has no issues.
Missing: scripts with two sections of one kind (`C89_self_violated`, `C89_second_violated`), and issues the old script already had
(`C89_issues_violated`). -/
theorem C89_empty_partial {old new : Script} (ho : (old.sections.map kindOf).Nodup) (hn : (new.sections.map kindOf).Nodup) :
    (delta old new).isEmpty = true ↔ (∀ x, x ∈ old.sections.map says ↔ x ∈ new.sections.map says) ∧ new.issues = [] := by
  have he : (delta old new).isEmpty = true ↔ (delta old new).added = [] ∧ (delta old new).modified = [] ∧ (delta old new).removed = [] ∧ new.issues = [] := by
    unfold Delta.isEmpty
    simp only [Bool.and_eq_true, List.isEmpty_iff, and_assoc]
    rfl
  rw [he]
  constructor
  · rintro ⟨h1, h2, h3, h4⟩
    refine ⟨fun x => ?_, h4⟩
    rw [← carried_says (old := old) hn x]
    rw [carried_none _ h1 h2 h3]
  · rintro ⟨h1, h2⟩
    have hf : ∀ s ∈ old.sections, ∃ t, new.sections.find? (fun t => decide (kind t = kind s)) = some t ∧ sameContent s t = true := by
      intro s hs
      obtain ⟨t, ht, hst⟩ := List.mem_map.1 ((h1 (says s)).1 (List.mem_map_of_mem hs))
      have hk := says_kind hst
      have : (new.sections.find? (fun t => decide (kind t = kind s))).isSome := by
        rw [List.find?_isSome]
        exact ⟨t, ht, by rw [kind_eq, kind_eq, hk]; simp⟩
      obtain ⟨u, hu⟩ := Option.isSome_iff_exists.1 this
      have hk' : kind u = kind s := by simpa using List.find?_some hu
      have : u = t := kind_unique hn (List.mem_of_find?_eq_some hu) ht (by rw [← kind_eq, hk', kind_eq, hk])
      subst this
      exact ⟨u, hu, (sameContent_iff _ _).2 hst.symm⟩
    have hd : ∀ (l : List Section) (k : Nat), (∀ s ∈ l, s ∈ old.sections) → deltaOld new.sections k l = ([], []) := by
      intro l
      induction l with
      | nil => intro k _; rfl
      | cons s l ih =>
        intro k hl
        obtain ⟨t, ht, hs⟩ := hf s (hl s (by simp))
        rw [deltaOld]
        simp only [ht, hs, if_true, ih (k + 1) (fun x hx => hl x (List.mem_cons_of_mem _ hx))]
    have hd' := hd old.sections 0 (fun _ h => h)
    refine ⟨?_, ?_, ?_, h2⟩
    · rw [List.eq_nil_iff_forall_not_mem]
      intro t ht
      obtain ⟨g1, g2⟩ := mem_added.1 ht
      obtain ⟨s, hs, hst⟩ := List.mem_map.1 ((h1 (says t)).2 (List.mem_map_of_mem g1))
      exact g2 s hs (says_kind hst)
    · show (deltaOld new.sections 0 old.sections).1 = []
      rw [hd']
    · show (deltaOld new.sections 0 old.sections).2 = []
      rw [hd']

/-- `small` with one event less, and a section of fonts. -/
def smaller : Str :=
  ("[Script Info]\nTitle: a\n[V4+ Styles]\nFormat: Name, Fontname, Fontsize\nStyle: A,Arial,9\nStyle: B,Arial,8\n[Events]\n" ++
  "Format: Layer, Start, End, Style, Text\nDialogue: 0,0:00:01.00,0:00:02.00,A,one\n[Fonts]\nfontname: f\nAA\n").toList

example : ∃ a b, parse small = some a ∧ parse smaller = some b ∧ (a.sections.map kindOf).Nodup ∧ (b.sections.map kindOf).Nodup ∧
    (delta a b).modified.map (·.1) = [2] ∧ (delta a b).removed = [] ∧ (delta a b).added.length = 1 := by
  obtain ⟨a, h1, h2⟩ := of_parsed (src := small)
    (P := fun a : Script => (parse smaller).any (fun b : Script => decide ((a.sections.map kindOf).Nodup ∧ (b.sections.map kindOf).Nodup ∧
    (delta a b).modified.map (·.1) = [2] ∧ (delta a b).removed = [] ∧ (delta a b).added.length = 1))) (by decide +kernel)
  obtain ⟨b, h3, h4⟩ := of_parsed h2
  exact ⟨a, b, h1, h3, of_decide_eq_true h4⟩

/-- Two sections of events. -/
def twice : Str :=
  ("[Script Info]\nTitle: a\n[Events]\nFormat: Layer, Start, End, Style, Text\nDialogue: 0,0:00:01.00,0:00:02.00,A,one\n" ++
   "[Events]\nFormat: Layer, Start, End, Style, Text\nDialogue: 0,0:00:01.00,0:00:02.00,A,two\n").toList

/-- The first of the two only. -/
def once : Str :=
  ("[Script Info]\nTitle: a\n[Events]\nFormat: Layer, Start, End, Style, Text\nDialogue: 0,0:00:01.00,0:00:02.00,A,one\n").toList

/-- **C89, disagreement.** With two sections of one kind, a script differs from itself. -/
theorem C89_self_violated : ∃ s, parse twice = some s ∧ s.issues = [] ∧ (delta s s).isEmpty = false := by
  obtain ⟨s, h1, h2⟩ := of_parsed (src := twice) (P := fun s => decide (s.issues = [] ∧ (delta s s).isEmpty = false)) (by decide +kernel)
  exact ⟨s, h1, of_decide_eq_true h2⟩

/-- **C89, disagreement.** A second section of a kind that was there before is not seen. -/
theorem C89_second_violated : ∃ a b, parse once = some a ∧ parse twice = some b ∧ (delta a b).isEmpty = true ∧
    a.sections.length < b.sections.length := by
  obtain ⟨a, h1, h2⟩ := of_parsed (src := once)
    (P := fun a : Script => (parse twice).any (fun b : Script => decide ((delta a b).isEmpty = true ∧ a.sections.length < b.sections.length))) (by decide +kernel)
  obtain ⟨b, h3, h4⟩ := of_parsed h2
  exact ⟨a, b, h1, h3, of_decide_eq_true h4⟩

/-- **C89, disagreement.** Issues that the old script had too are given as new. -/
theorem C89_issues_violated : ∃ s, parse "[Script Info]\nTitle: a\nwrong\n".toList = some s ∧ (delta s s).issues ≠ [] := by
  obtain ⟨s, h1, h2⟩ := of_parsed (src := "[Script Info]\nTitle: a\nwrong\n".toList) (P := fun s => decide ((delta s s).issues ≠ [])) (by decide +kernel)
  exact ⟨s, h1, of_decide_eq_true h2⟩

end Verif.Props
