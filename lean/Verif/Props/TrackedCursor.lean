import Verif.Lemmas.Tracked
/-!
# C163 — the cursor that a document tracks
-/
namespace Verif.Props.TrackedCursor
open Verif Verif.Doc Verif.Pos Verif.Tracked Verif.Spec.Tracked

/-- A successful edit from `d` to `d'`. -/
inductive Edit : TDoc → TDoc → Prop
  | insert {d d' : TDoc} (pos : Nat) (t : Str) : Tracked.insert d pos t = (.ok (), d') → Edit d d'
  | delete {d d' : TDoc} (r : Range) : delete d r = (.ok (), d') → Edit d d'
  | replace {d d' : TDoc} (r : Range) (t : Str) : replace d r t = (.ok (), d') → Edit d d'

theorem record_undoC (d : TDoc) (op : Doc.Op) (k c : Nat) :
    ∃ n, (record d op k c).undoC = ((d.cursor, some c) :: d.undoC).take n := ⟨_, rfl⟩

theorem insert_ok {d d' : TDoc} {pos : Nat} {t : Str} (h : insert d pos t = (.ok (), d')) :
    ∃ d1, insertRaw d pos t = (.ok (), d1) ∧ d' = record d1 (.insert pos t) insertDesc (pos + byteLen t) := by
  unfold Tracked.insert at h
  split at h
  · next d1 e => injection h with _ h; exact ⟨d1, e, h.symm⟩
  · next hn _ => injection h with h _; exact absurd h (hn ())

theorem delete_ok {d d' : TDoc} {r : Range} (h : delete d r = (.ok (), d')) :
    ∃ d1 x, deleteRaw d r = (.ok (), d1) ∧ d' = record d1 (.delete r x) deleteDesc r.start := by
  unfold delete at h
  split at h
  · injection h with h _; cases h
  · injection h with h _; cases h
  · next x _ =>
    split at h
    · next d1 e => injection h with _ h; exact ⟨d1, x, e, h.symm⟩
    · next hn _ => injection h with h _; exact absurd h (hn ())

theorem replace_ok {d d' : TDoc} {r : Range} {t : Str} (h : replace d r t = (.ok (), d')) :
    ∃ d1 x, replaceRaw d r t = (.ok (), d1) ∧ d' = record d1 (.replace r x t) replaceDesc (r.start + byteLen t) := by
  unfold replace at h
  split at h
  · injection h with h _; cases h
  · injection h with h _; cases h
  · next x _ =>
    split at h
    · next d1 e => injection h with _ h; exact ⟨d1, x, e, h.symm⟩
    · next hn _ => injection h with h _; exact absurd h (hn ())

/-- **C163.** After a successful edit the cursor stands behind the inserted text, or where the deleted text was. -/
theorem C163_edit (d d' : TDoc) :
    (∀ pos t, insert d pos t = (.ok (), d') → d'.cursor = some (pos + bytes t)) ∧
    (∀ r, delete d r = (.ok (), d') → d'.cursor = some r.start) ∧
    (∀ r t, replace d r t = (.ok (), d') → d'.cursor = some (r.start + bytes t)) := by
  refine ⟨fun pos t h => ?_, fun r h => ?_, fun r t h => ?_⟩
  · obtain ⟨d1, _, rfl⟩ := insert_ok h; rw [bytes_eq]; rfl
  · obtain ⟨d1, x, _, rfl⟩ := delete_ok h; rfl
  · obtain ⟨d1, x, _, rfl⟩ := replace_ok h; rw [bytes_eq]; rfl

theorem edit_undoC {d d' : TDoc} (h : Edit d d') :
    ∃ n c, d'.cursor = some c ∧ d'.undoC = ((d.cursor, some c) :: d.undoC).take n ∧ d'.redoC = [] := by
  cases h with
  | insert pos t h =>
    obtain ⟨d1, h1, rfl⟩ := insert_ok h
    have hb := insertRaw_beside d pos t
    rw [h1] at hb
    exact ⟨_, _, rfl, by rw [← hb.2.2.2.1, ← hb.2.1]; rfl, rfl⟩
  | delete r h =>
    obtain ⟨d1, x, h1, rfl⟩ := delete_ok h
    have hb := deleteRaw_beside d r
    rw [h1] at hb
    exact ⟨_, _, rfl, by rw [← hb.2.2.2.1, ← hb.2.1]; rfl, rfl⟩
  | replace r t h =>
    obtain ⟨d1, x, h1, rfl⟩ := replace_ok h
    have hb := replaceRaw_beside d r t
    rw [h1] at hb
    exact ⟨_, _, rfl, by rw [← hb.2.2.2.1, ← hb.2.1]; rfl, rfl⟩

theorem undo_ok {d d' : TDoc} {x : Option Nat} (h : undo d = (.ok x, d')) :
    ∃ c cs, d.undoC = c :: cs ∧ x = c.1 ∧ d'.undoC = cs ∧ d'.redoC = c :: d.redoC ∧ d'.cursor = d.cursor := by
  unfold undo at h
  split at h
  · next e hh c cs _ hc =>
    have hb := undoRaw_beside { d with hist := hh, undoC := cs } e.op
    split at h
    · next d1 g =>
      rw [g] at hb
      injection h with h1 h2
      injection h1 with h1
      subst h2
      exact ⟨c, cs, hc, h1.symm, hb.2.1, by show c :: d1.redoC = _; rw [hb.2.2.1], hb.2.2.2.1⟩
    · injection h with h _; cases h
    · injection h with h _; cases h
  · injection h with h _; cases h

theorem redo_ok {d d' : TDoc} {x : Option Nat} (h : redo d = (.ok x, d')) :
    ∃ c cs n, d.redoC = c :: cs ∧ x = c.2 ∧ d'.undoC = (c :: d.undoC).take n ∧ d'.cursor = c.2.or d.cursor := by
  unfold redo at h
  split at h
  · next e hh c cs _ hc =>
    have hb := redoRaw_beside { d with hist := hh, redoC := cs } e.op
    split at h
    · next d1 g =>
      rw [g] at hb
      injection h with h1 h2
      injection h1 with h1
      subst h2
      exact ⟨c, cs, _, hc, h1.symm, by show (c :: d1.undoC).take _ = _; rw [hb.2.1], by show c.2.or d1.cursor = _; rw [hb.2.2.2.1]⟩
    · injection h with h _; cases h
    · injection h with h _; cases h
  · injection h with h _; cases h

/-- Edits from `d` to `d'`, between which the cursor may be moved; `cs` are the cursors right before the edits. -/
inductive Edits : TDoc → List (Option Nat) → TDoc → Prop
  | nil (d : TDoc) : Edits d [] d
  | move {d d' : TDoc} {cs : List (Option Nat)} (c : Option Nat) : Edits (setCursor d c) cs d' → Edits d cs d'
  | edit {d d1 d' : TDoc} {cs : List (Option Nat)} : Edit d d1 → Edits d1 cs d' → Edits d (d.cursor :: cs) d'

/-- Undone `k` times with success: the cursors reported. -/
inductive Undos : TDoc → List (Option Nat) → TDoc → Prop
  | nil (d : TDoc) : Undos d [] d
  | undo {d d1 d' : TDoc} {x : Option Nat} {xs : List (Option Nat)} : undo d = (.ok x, d1) → Undos d1 xs d' → Undos d (x :: xs) d'

theorem edits_undoC {d d' : TDoc} {cs : List (Option Nat)} (h : Edits d cs d') :
    d'.undoC.map Prod.fst <+: cs.reverse ++ d.undoC.map Prod.fst := by
  induction h with
  | nil d => exact List.prefix_refl _
  | move c _ ih => exact ih
  | @edit d d1 d' cs he _ ih =>
    obtain ⟨n, c, _, h2, _⟩ := edit_undoC he
    have hp : d1.undoC.map Prod.fst <+: d.cursor :: d.undoC.map Prod.fst := by
      rw [h2, List.map_take]
      exact List.take_prefix _ _
    rw [List.reverse_cons, List.append_assoc, List.singleton_append]
    exact ih.trans (List.prefix_append_right_inj _ |>.2 hp)

theorem undos_undoC {d d' : TDoc} {xs : List (Option Nat)} (h : Undos d xs d') : xs <+: d.undoC.map Prod.fst := by
  induction h with
  | nil d => exact List.nil_prefix
  | @undo d d1 d' x xs hu _ ih =>
    obtain ⟨c, cs, h1, h2, h3, _⟩ := undo_ok hu
    rw [h1, List.map_cons, h2, ← h3]
    exact (List.cons_prefix_cons).2 ⟨rfl, ih⟩

/-- **C163.** Undoing reports where the cursor was before the edits: after any number of edits, between which the cursor may have been
moved, as many undos report the cursors before them, the last first. -/
theorem C163_undo {d d' d'' : TDoc} {cs xs : List (Option Nat)} (h : Edits d cs d') (hu : Undos d' xs d'') (hl : xs.length = cs.length) :
    xs = cs.reverse := by
  have h1 := (undos_undoC hu).trans (edits_undoC h)
  rw [List.prefix_iff_eq_take] at h1
  rw [h1, hl, List.take_left' (by simp)]

/-- A document with the text `ab`. -/
def exDoc : TDoc := fromContent ⟨50, 0, 100⟩ "ab".toList
/-- After an edit, a move and another edit. -/
def exEdited : TDoc := (insert (setCursor (insert exDoc 1 "xy".toList).2 (some 0)) 4 "z".toList).2

example : Edits exDoc [none, some 0] exEdited :=
  .edit (.insert 1 "xy".toList rfl) (.move (some 0) (.edit (.insert 4 "z".toList rfl) (.nil _)))
example : Undos exEdited [some 0, none] (undo (undo exEdited).2).2 := .undo rfl (.undo rfl (.nil _))

/-- **C163.** Redoing an undone edit puts the cursor where it was after the edit, and reports that; undoing it again reports what the first
undo did. -/
theorem C163_redo {d d1 d2 d3 d4 : TDoc} {x y z : Option Nat} (he : Edit d d1) (hu : undo d1 = (.ok x, d2)) (hr : redo d2 = (.ok y, d3))
    (hu2 : undo d3 = (.ok z, d4)) : d3.cursor = d1.cursor ∧ y = d1.cursor ∧ z = d.cursor ∧ x = d.cursor := by
  obtain ⟨n, c, h1, h2, _⟩ := edit_undoC he
  obtain ⟨p, ps, u1, u2, u3, u4, u5⟩ := undo_ok hu
  obtain ⟨q, qs, m, r1, r2, r3, r4⟩ := redo_ok hr
  obtain ⟨s, ss, v1, v2, _⟩ := undo_ok hu2
  rw [u1] at h2
  have hp : p = (d.cursor, some c) := by
    cases n with
    | zero => simp at h2
    | succ n => rw [List.take_succ_cons] at h2; injection h2
  rw [u4] at r1
  injection r1 with r1 _
  subst r1
  have hs : s = p := by
    rw [r3] at v1
    cases m with
    | zero => simp at v1
    | succ m => rw [List.take_succ_cons] at v1; injection v1 with v1 _; exact v1.symm
  refine ⟨?_, ?_, ?_, ?_⟩
  · rw [r4, hp, h1]; rfl
  · rw [r2, hp, h1]
  · rw [v2, hs, hp]
  · rw [u2, hp]

example : (redo (undo (insert exDoc 1 "xy".toList).2).2).1 = .ok (some 3) ∧
    (undo (redo (undo (insert exDoc 1 "xy".toList).2).2).2).1 = .ok none := by decide +kernel

/-! ## Where the cursor stands -/

theorem insertRaw_place {d d1 : TDoc} {pos : Nat} {t : Str} (hp : Place d.text pos) (h : insertRaw d pos t = (.ok (), d1)) :
    Place d1.text (pos + byteLen t) ∧ ∃ a b, d.text = a ++ b ∧ d1.text = a ++ t ++ b ∧ pos = byteLen a := by
  obtain ⟨a, b, h1, h2⟩ := hp
  rw [bytes_eq] at h2
  unfold Tracked.insertRaw at h
  rw [h1, h2, insertRaw_at] at h
  injection h with _ h
  subst h
  exact ⟨⟨a ++ t, b, rfl, by rw [bytes_eq, byteLen_append, h2]⟩, a, b, h1, rfl, h2⟩

theorem split_at {s a b c e : Str} (h1 : s = a ++ b) (h2 : s = c ++ e) (h : byteLen a ≤ byteLen c) : ∃ m, c = a ++ m ∧ b = m ++ e := by
  rcases List.append_eq_append_iff.1 (h1.symm.trans h2) with ⟨m, k1, k2⟩ | ⟨m, k1, k2⟩
  · exact ⟨m, k1, k2⟩
  · have : byteLen m = 0 := by rw [k1, byteLen_append] at h; omega
    have : m = [] := by
      cases m with
      | nil => rfl
      | cons c m => rw [byteLen_cons] at this; have := c.utf8Size_pos; omega
    subst this
    exact ⟨[], by simpa using k1.symm, by simpa using k2.symm⟩

theorem deleteRaw_place {d d1 : TDoc} {r : Range} (ha : Place d.text r.start) (hb : Place d.text r.fin) (hr : r.start ≤ r.fin)
    (h : deleteRaw d r = (.ok (), d1)) : Place d1.text r.start := by
  obtain ⟨a, b, h1, h2⟩ := ha
  obtain ⟨c, e, h3, h4⟩ := hb
  rw [bytes_eq] at h2 h4
  obtain ⟨m, k1, k2⟩ := split_at h1 h3 (by omega)
  have hrr : r = ⟨byteLen a, byteLen (a ++ m)⟩ := by
    obtain ⟨x, y⟩ := r
    dsimp only at h2 h4
    rw [h2, h4, k1]
  unfold Tracked.deleteRaw at h
  rw [h1, k2, ← List.append_assoc, hrr, byteLen_append, deleteRaw_at] at h
  injection h with _ h
  subst h
  rw [hrr]
  exact ⟨a, e, rfl, (bytes_eq a).symm⟩

/-- **C163 (part).** After a successful edit at places between characters the cursor stands at a place of the new text.
Missing: edits within characters (`C163_inside_violated`) and undoing (`C163_undo_violated`). -/
theorem C163_place_partial (d d' : TDoc) :
    (∀ pos t, Place d.text pos → insert d pos t = (.ok (), d') → ∃ n, d'.cursor = some n ∧ Place d'.text n) ∧
    (∀ r : Range, Place d.text r.start → Place d.text r.fin → r.start ≤ r.fin → delete d r = (.ok (), d') →
      ∃ n, d'.cursor = some n ∧ Place d'.text n) ∧
    (∀ (r : Range) t, Place d.text r.start → Place d.text r.fin → r.start ≤ r.fin → replace d r t = (.ok (), d') →
      ∃ n, d'.cursor = some n ∧ Place d'.text n) := by
  refine ⟨fun pos t hp h => ?_, fun r ha hb hr h => ?_, fun r t ha hb hr h => ?_⟩
  · obtain ⟨d1, h1, rfl⟩ := insert_ok h
    exact ⟨_, rfl, (insertRaw_place hp h1).1⟩
  · obtain ⟨d1, x, h1, rfl⟩ := delete_ok h
    exact ⟨r.start, rfl, (deleteRaw_place ha hb hr h1 : Place d1.text r.start)⟩
  · obtain ⟨d1, x, h1, rfl⟩ := replace_ok h
    unfold Tracked.replaceRaw at h1
    split at h1
    · next d2 e => exact ⟨_, rfl, (insertRaw_place (deleteRaw_place ha hb hr e) h1).1⟩
    · next hn _ => injection h1 with h1 _; exact absurd h1 (hn ())

example : Place "aéb".toList 3 := ⟨"aé".toList, "b".toList, rfl, by decide⟩

/-- **C163, disagreement.** Deleting from within a character can leave the cursor behind the end of the text. -/
theorem C163_inside_violated : ¬ ∀ (cfg : Config) (s : Str) (r : Range) (d' : TDoc), delete (fromContent cfg s) r = (.ok (), d') →
    ∀ n, d'.cursor = some n → n ≤ bytes d'.text := by
  intro H
  have e : (delete (fromContent ⟨50, 0, 100⟩ ['é']) ⟨1, 2⟩).1 = .ok () ∧ (delete (fromContent ⟨50, 0, 100⟩ ['é']) ⟨1, 2⟩).2.cursor = some 1 ∧
    bytes (delete (fromContent ⟨50, 0, 100⟩ ['é']) ⟨1, 2⟩).2.text = 0 := by decide +kernel
  have H2 := H ⟨50, 0, 100⟩ ['é'] ⟨1, 2⟩
  generalize delete (fromContent ⟨50, 0, 100⟩ ['é']) ⟨1, 2⟩ = R at e H2
  obtain ⟨o, d'⟩ := R
  obtain ⟨rfl, e2, e3⟩ := e
  have := H2 d' rfl 1 e2
  dsimp only at e3
  omega

/-- **C163.** Undoing does not move the tracked cursor, whatever it reports. -/
theorem C163_undo_stays (d d' : TDoc) (x : Option Nat) (h : undo d = (.ok x, d')) : d'.cursor = d.cursor :=
  (undo_ok h).choose_spec.choose_spec.2.2.2.2

/-- **C163, disagreement.** So after undoing the tracked cursor is neither the one reported nor always within the text. -/
theorem C163_undo_violated : ¬ ∀ (d d1 d2 : TDoc) (x : Option Nat), Edit d d1 → undo d1 = (.ok x, d2) →
    d2.cursor = x ∨ ∃ n, d2.cursor = some n ∧ n ≤ bytes d2.text := by
  intro H
  have e1 : (insert exDoc 2 "xy".toList).1 = .ok () := by decide +kernel
  have e : (undo (insert exDoc 2 "xy".toList).2).1 = .ok none ∧ (undo (insert exDoc 2 "xy".toList).2).2.cursor = some 4 ∧
    bytes (undo (insert exDoc 2 "xy".toList).2).2.text = 2 := by decide +kernel
  have H2 : ∀ d1, insert exDoc 2 "xy".toList = (.ok (), d1) → Edit exDoc d1 := fun d1 h => .insert 2 _ h
  have H3 := H exDoc
  generalize insert exDoc 2 "xy".toList = R at e1 e H2
  obtain ⟨o, d1⟩ := R
  dsimp only at e1 e
  subst e1
  have H4 := H3 d1
  generalize undo d1 = R at e H4
  obtain ⟨o, d2⟩ := R
  obtain ⟨e1, e2, e3⟩ := e
  dsimp only at e1 e2 e3
  subst e1
  rcases H4 d2 none (H2 d1 rfl) rfl with h | ⟨n, h1, h2⟩
  · rw [e2] at h; cases h
  · rw [e2] at h1; injection h1 with h1; omega

/-- **C163, disagreement.** After a command has been executed with `execute_command`, undoing reports the cursor after the command, not
the one before: the cursor is moved before the entry of the history is made. -/
theorem C163_exec_violated (d d' d'' : TDoc) (c : TextCmd) (x : Option Nat) (h : exec d c = (.ok (), d')) (hu : undo d' = (.ok x, d'')) :
    x = some c.cursor := by
  unfold exec at h
  split at h
  · next d1 _ =>
    split at h
    · next op _ =>
      injection h with _ h
      obtain ⟨p, ps, u1, u2, _⟩ := undo_ok hu
      obtain ⟨n, hn⟩ := record_undoC { d1 with cursor := some c.cursor } op (byteLen c.desc) c.cursor
      rw [← h, hn] at u1
      cases n with
      | zero => simp at u1
      | succ n =>
        rw [List.take_succ_cons] at u1
        injection u1 with u1 _
        rw [u2, ← u1]
    · injection h with h _; cases h
    · injection h with h _; cases h
  · next hn _ => injection h with h _; exact absurd h (hn ())

example : (undo (exec exDoc (.insert 1 "xy".toList)).2).1 = .ok (some 3) := by decide +kernel

/-! ## The rest of the document -/

/-- The document without cursors, path and mark. -/
def bare (d : TDoc) : Doc.Doc := ⟨d.text, d.hist⟩

theorem insertRaw_bare (d : TDoc) (pos : Nat) (t : Str) :
    (insertRaw d pos t).1 = (Doc.insertRaw d.text pos t).1 ∧ (insertRaw d pos t).2.text = (Doc.insertRaw d.text pos t).2 := by
  unfold Tracked.insertRaw
  split
  · next e => rw [e]; exact ⟨rfl, rfl⟩
  · next e => rw [e]; exact ⟨rfl, rfl⟩

theorem deleteRaw_bare (d : TDoc) (r : Range) :
    (deleteRaw d r).1 = (Doc.deleteRaw d.text r).1 ∧ (deleteRaw d r).2.text = (Doc.deleteRaw d.text r).2 := by
  unfold Tracked.deleteRaw
  split
  · next e => rw [e]; exact ⟨rfl, rfl⟩
  · next e => rw [e]; exact ⟨rfl, rfl⟩

theorem replaceRaw_bare (d : TDoc) (r : Range) (t : Str) :
    (replaceRaw d r t).1 = (Doc.replaceRaw d.text r t).1 ∧ (replaceRaw d r t).2.text = (Doc.replaceRaw d.text r t).2 := by
  have h := deleteRaw_bare d r
  unfold Tracked.replaceRaw Doc.replaceRaw
  generalize deleteRaw d r = R at h
  generalize Doc.deleteRaw d.text r = Q at h
  obtain ⟨o, d1⟩ := R
  obtain ⟨o', s⟩ := Q
  dsimp only at h
  obtain ⟨rfl, rfl⟩ := h
  cases o with
  | ok u => exact insertRaw_bare d1 r.start t
  | err => exact ⟨rfl, rfl⟩
  | panic => exact ⟨rfl, rfl⟩

/-- A raw change of a tracked document is that of its text. -/
def Raw (d : TDoc) (R : Outcome Unit × TDoc) (Q : Outcome Unit × Str) : Prop :=
  R.1 = Q.1 ∧ R.2.text = Q.2 ∧ Beside d R.2

theorem insertRaw_raw (d : TDoc) (pos : Nat) (t : Str) : Raw d (insertRaw d pos t) (Doc.insertRaw d.text pos t) :=
  ⟨(insertRaw_bare d pos t).1, (insertRaw_bare d pos t).2, insertRaw_beside d pos t⟩

theorem deleteRaw_raw (d : TDoc) (r : Range) : Raw d (deleteRaw d r) (Doc.deleteRaw d.text r) :=
  ⟨(deleteRaw_bare d r).1, (deleteRaw_bare d r).2, deleteRaw_beside d r⟩

theorem replaceRaw_raw (d : TDoc) (r : Range) (t : Str) : Raw d (replaceRaw d r t) (Doc.replaceRaw d.text r t) :=
  ⟨(replaceRaw_bare d r t).1, (replaceRaw_bare d r t).2, replaceRaw_beside d r t⟩

theorem undoRaw_raw (d : TDoc) (op : Doc.Op) : Raw d (undoRaw d op) (undoText op d.text) := by
  cases op with
  | insert pos t => exact deleteRaw_raw d _
  | delete r x => exact insertRaw_raw d _ _
  | replace r x t => exact replaceRaw_raw d _ _

theorem redoRaw_raw (d : TDoc) (op : Doc.Op) : Raw d (redoRaw d op) (redoText op d.text) := by
  cases op with
  | insert pos t => exact insertRaw_raw d _ _
  | delete r x => exact deleteRaw_raw d _
  | replace r x t => exact replaceRaw_raw d _ _

theorem record_paired {d : TDoc} (h : Paired d) (op : Doc.Op) (k c : Nat) : Paired (record d op k c) := by
  have hp := push_prefix d.hist ⟨op, op.memory d.hist.cfg + k⟩
  have hl := hp.1.length_le
  rw [List.length_cons] at hl
  refine ⟨?_, by show 0 = List.length _; rw [show (record d op k c).hist.redo = [] from hp.2]; rfl⟩
  show (List.take _ _).length = _
  rw [List.length_take, List.length_cons, h.1]
  exact Nat.min_eq_left hl

theorem beside_paired {d d' : TDoc} (h : Beside d d') (hp : Paired d) : Paired d' := by
  unfold Paired
  rw [h.1, h.2.1, h.2.2.1]
  exact hp

/-- **C163.** But for cursors, path and mark, the edits are those of the plain document (C05, C14), with the same outcome, and every entry of
the history keeps its cursors. -/
theorem C163_same_edits (d : TDoc) (h : Paired d) :
    (∀ pos t, ((insert d pos t).1, bare (insert d pos t).2) = Doc.Doc.insert (bare d) pos t ∧ Paired (insert d pos t).2) ∧
    (∀ r, ((delete d r).1, bare (delete d r).2) = Doc.Doc.delete (bare d) r ∧ Paired (delete d r).2) ∧
    (∀ r t, ((replace d r t).1, bare (replace d r t).2) = Doc.Doc.replace (bare d) r t ∧ Paired (replace d r t).2) := by
  refine ⟨fun pos t => ?_, fun r => ?_, fun r t => ?_⟩
  · have hr := insertRaw_raw d pos t
    unfold Tracked.insert Doc.Doc.insert
    show _ = (match Doc.insertRaw d.text pos t with | (.ok _, s) => _ | (o, s) => _) ∧ _
    generalize insertRaw d pos t = R at hr
    generalize Doc.insertRaw d.text pos t = Q at hr
    obtain ⟨o, d1⟩ := R
    obtain ⟨o', s⟩ := Q
    obtain ⟨rfl, rfl, hb⟩ := hr
    have e := hb.1
    dsimp only at e
    cases o with
    | ok u => exact ⟨by simp only [bare, record, Doc.Doc.record, e], record_paired (beside_paired hb h) _ _ _⟩
    | err => exact ⟨by simp only [bare, e], beside_paired hb h⟩
    | panic => exact ⟨by simp only [bare, e], beside_paired hb h⟩
  · have hr := deleteRaw_raw d r
    unfold Tracked.delete Doc.Doc.delete
    show _ = (match textRange d.text r with
      | .err => _ | .panic => _ | .ok x => match Doc.deleteRaw d.text r with | (.ok _, s) => _ | (o, s) => _) ∧ _
    generalize textRange d.text r = T
    generalize deleteRaw d r = R at hr
    generalize Doc.deleteRaw d.text r = Q at hr
    obtain ⟨o, d1⟩ := R
    obtain ⟨o', s⟩ := Q
    obtain ⟨rfl, rfl, hb⟩ := hr
    have e := hb.1
    dsimp only at e
    cases T with
    | err => exact ⟨rfl, h⟩
    | panic => exact ⟨rfl, h⟩
    | ok x =>
      cases o with
      | ok u => exact ⟨by simp only [bare, record, Doc.Doc.record, e], record_paired (beside_paired hb h) _ _ _⟩
      | err => exact ⟨by simp only [bare, e], beside_paired hb h⟩
      | panic => exact ⟨by simp only [bare, e], beside_paired hb h⟩
  · have hr := replaceRaw_raw d r t
    unfold Tracked.replace Doc.Doc.replace
    show _ = (match textRange d.text r with
      | .err => _ | .panic => _ | .ok x => match Doc.replaceRaw d.text r t with | (.ok _, s) => _ | (o, s) => _) ∧ _
    generalize textRange d.text r = T
    generalize replaceRaw d r t = R at hr
    generalize Doc.replaceRaw d.text r t = Q at hr
    obtain ⟨o, d1⟩ := R
    obtain ⟨o', s⟩ := Q
    obtain ⟨rfl, rfl, hb⟩ := hr
    have e := hb.1
    dsimp only at e
    cases T with
    | err => exact ⟨rfl, h⟩
    | panic => exact ⟨rfl, h⟩
    | ok x =>
      cases o with
      | ok u => exact ⟨by simp only [bare, record, Doc.Doc.record, e], record_paired (beside_paired hb h) _ _ _⟩
      | err => exact ⟨by simp only [bare, e], beside_paired hb h⟩
      | panic => exact ⟨by simp only [bare, e], beside_paired hb h⟩

example : Paired exEdited := ⟨by decide +kernel, by decide +kernel⟩

/-- **C163.** So are undoing and redoing. -/
theorem C163_same_undo (d : TDoc) (h : Paired d) :
    ((plain (undo d).1, bare (undo d).2) = Doc.Doc.undo (bare d) ∧ Paired (undo d).2) ∧
    ((plain (redo d).1, bare (redo d).2) = Doc.Doc.redo (bare d) ∧ Paired (redo d).2) := by
  obtain ⟨txt, md, ⟨cfg, us, rs, mem⟩, uc, rc, cur, pth⟩ := d
  obtain ⟨h1, h2⟩ := h
  dsimp only at h1 h2
  constructor
  · cases us with
    | nil => cases uc with
      | nil => exact ⟨rfl, rfl, h2⟩
      | cons c cs => simp at h1
    | cons e es => cases uc with
      | nil => simp at h1
      | cons c cs =>
        have hr := undoRaw_raw ⟨txt, md, ⟨cfg, es, rs, mem - e.mem⟩, cs, rc, cur, pth⟩ e.op
        simp only [List.length_cons, Nat.add_right_cancel_iff] at h1
        simp only [Tracked.undo, Doc.Doc.undo, bare, Stack.popUndo]
        dsimp only at hr
        generalize undoRaw _ e.op = R at hr
        generalize undoText e.op txt = Q at hr
        obtain ⟨o, d1⟩ := R
        obtain ⟨o', s⟩ := Q
        obtain ⟨rfl, rfl, b1, b2, b3, _⟩ := hr
        dsimp only at b1 b2 b3
        cases o <;> simp [plain, Paired, Stack.pushRedo, b1, b2, b3, h1, h2]
  · cases rs with
    | nil => cases rc with
      | nil => exact ⟨rfl, h1, rfl⟩
      | cons c cs => simp at h2
    | cons e es => cases rc with
      | nil => simp at h2
      | cons c cs =>
        have hr := redoRaw_raw ⟨txt, md, ⟨cfg, us, es, mem - e.mem⟩, uc, cs, cur, pth⟩ e.op
        simp only [List.length_cons, Nat.add_right_cancel_iff] at h2
        simp only [Tracked.redo, Doc.Doc.redo, bare, Stack.popRedo]
        dsimp only at hr
        generalize redoRaw _ e.op = R at hr
        generalize redoText e.op txt = Q at hr
        obtain ⟨o, d1⟩ := R
        obtain ⟨o', s⟩ := Q
        obtain ⟨rfl, rfl, b1, b2, b3, _⟩ := hr
        dsimp only at b1 b2 b3
        have hp := push_prefix (⟨cfg, us, es, mem - e.mem⟩ : Stack) e
        have hl := hp.1.length_le
        rw [List.length_cons] at hl
        cases o with
        | ok u =>
          refine ⟨by simp [plain, b1], ?_, ?_⟩
          · simp only [List.length_take, List.length_cons, b1, b2, h1]
            exact Nat.min_eq_left hl
          · show ([] : List (Option Nat × Option Nat)).length = (d1.hist.push e).redo.length
            rw [b1, hp.2]; rfl
        | err => simp [plain, Paired, b1, b2, b3, h1, h2]
        | panic => simp [plain, Paired, b1, b2, b3, h1, h2]

/-- What can become of a document that has been loaded. -/
inductive Reached (cfg : Config) : TDoc → Files → Prop
  | load (s : Str) (fs : Files) : Reached cfg (fromContent cfg s) fs
  | file {fs : Files} {p : Str} {d : TDoc} : fromFile cfg fs p = some d → Reached cfg d fs
  | act {d : TDoc} {fs : Files} (a : Act) : Reached cfg d fs → Reached cfg (step d fs a).2.1 (step d fs a).2.2

theorem exec_paired {d : TDoc} (h : Paired d) (c : TextCmd) : Paired (exec d c).2 := by
  have hb := run_beside d c
  unfold exec
  generalize c.run d = R at hb
  obtain ⟨o, d1⟩ := R
  have h1 : Paired d1 := beside_paired hb h
  cases o with
  | ok u =>
    dsimp only
    split
    · next op _ => exact record_paired (d := { d1 with cursor := some c.cursor }) h1 op _ _
    · exact h1
    · exact h1
  | err => exact h1
  | panic => exact h1

theorem saveTo_paired {d : TDoc} (h : Paired d) (fs : Files) (p : Str) (f : Option (Option Str)) : Paired (saveTo d fs p f).2.1 := by
  cases f <;> exact h

/-- **C163.** In every document that can be reached the entries of the history have their cursors, as `C163_same_edits` and
`C163_same_undo` ask. -/
theorem C163_reached {cfg : Config} {d : TDoc} {fs : Files} (h : Reached cfg d fs) : Paired d := by
  induction h with
  | load s fs => exact ⟨rfl, rfl⟩
  | @file fs p d h =>
    unfold fromFile at h
    cases g : fs p with
    | none => rw [g] at h; cases h
    | some s => rw [g] at h; injection h with h; subst h; exact ⟨rfl, rfl⟩
  | @act d fs a _ ih =>
    cases a with
    | insert pos t => exact ((C163_same_edits d ih).1 pos t).2
    | delete r => exact ((C163_same_edits d ih).2.1 r).2
    | replace r t => exact ((C163_same_edits d ih).2.2 r t).2
    | exec c => exact exec_paired ih c
    | undo => exact (C163_same_undo d ih).1.2
    | redo => exact (C163_same_undo d ih).2.2
    | setCursor c => exact ih
    | setPath p => exact ih
    | save f =>
      show Paired (save d fs f).2.1
      unfold save
      split
      · exact saveTo_paired ih fs _ f
      · exact ih
    | saveTo p f => exact saveTo_paired ih fs p f

example : Reached ⟨50, 0, 100⟩ (step exDoc (fun _ => none) (.insert 1 "xy".toList)).2.1 (fun _ => none) :=
  .act (.insert 1 "xy".toList) (.load _ _)

end Verif.Props.TrackedCursor
