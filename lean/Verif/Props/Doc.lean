import Verif.Lemmas.Doc
import Verif.Spec.Range
/-!
# C12–C15, C53 — document edits, undo and redo
-/
namespace Verif.Props
open Verif Verif.Pos Verif.Doc Verif.Spec

/-- A small document used in the examples: unlimited memory, 50 entries. -/
def exDoc : Doc := ⟨"héllo".toList, Stack.new ⟨50, 0, 100⟩⟩

/-! ## C15 -/

/-- **C15.** An edit at whole-character positions succeeds and performs exactly its splice. -/
theorem C15_edit_exact (d : Doc) (e : Edit) (s' : Str) (h : Splice d.text e s') :
    (e.run d).1 = .ok () ∧ (e.run d).2.text = s' := by
  generalize hd : d.text = s at h
  cases h with
  | insert a b t => simp only [Edit.run, Doc.insert, hd, insertRaw_at, Doc.record, and_self]
  | delete a m b =>
    simp only [Edit.run, Doc.delete, hd, textRange_at, deleteRaw_at, Doc.record, and_self]
  | replace a m b n =>
    simp only [Edit.run, Doc.replace, hd, textRange_at, replaceRaw_at, Doc.record, and_self]

example : Splice exDoc.text (.replace ⟨1, 3⟩ "ab".toList) "habllo".toList :=
  Splice.replace "h".toList "é".toList "llo".toList "ab".toList

/-- **C15.** An edit outside the text is refused and leaves the whole document, history included,
unchanged. -/
theorem C15_rejected_unchanged (d : Doc) :
    (∀ pos t, byteLen d.text < pos → d.insert pos t = (.err, d)) ∧
    (∀ r, byteLen d.text < r.fin → d.delete r = (.err, d)) ∧
    (∀ r t, byteLen d.text < r.fin → d.replace r t = (.err, d)) := by
  refine ⟨?_, ?_, ?_⟩
  · intro pos t h; simp [Doc.insert, insertRaw, h]
  · intro r h; simp [Doc.delete, textRange, h]
  · intro r t h; simp [Doc.replace, textRange, h]

example : exDoc.insert 7 "x".toList = (.err, exDoc) := by decide

/-- **C15.** With an ordered range (all constructors build those) insert and delete never panic,
and whenever they fail the document is unchanged, for any offsets, also inside a character. -/
theorem C15_insert_delete_total (d : Doc) :
    (∀ pos t, (d.insert pos t).1 = .ok () ∨ d.insert pos t = (.err, d)) ∧
    (∀ r, Ordered r → (d.delete r).1 = .ok () ∨ d.delete r = (.err, d)) := by
  refine ⟨?_, ?_⟩
  · intro pos t
    simp only [Doc.insert, insertRaw]
    by_cases h : pos > byteLen d.text <;> simp [h]
  · intro r ho
    have := byteToChar_mono d.text (m := r.start) (n := r.fin) ho
    simp only [Doc.delete, textRange, deleteRaw]
    by_cases h : r.fin > byteLen d.text
    · simp [h]
    · simp [h, this]

example : (exDoc.insert 2 "x".toList).1 = .ok () := by decide

/-- **C15, disagreement.** A replace that starts inside the last character fails after having
deleted that character: a rejected edit changes the document. -/
theorem C15_rejected_replace_violated :
    ¬ ∀ (d : Doc) (r : Range) (t : Str), Ordered r →
        (d.replace r t).1 = .err → (d.replace r t).2.text = d.text := by
  intro h
  have := h ⟨"é".toList, Stack.new ⟨50, 0, 100⟩⟩ ⟨1, 2⟩ "x".toList (by decide) (by decide)
  revert this; decide

/-- **C15.** A replace whose start is a whole-character position either succeeds or is refused
without effect (missing: starts inside a character, see `C15_rejected_replace_violated`). -/
theorem C15_replace_total_partial (d : Doc) (a b : Str) (n : Nat) (t : Str) (h : d.text = a ++ b)
    (ho : byteLen a ≤ n) :
    (d.replace ⟨byteLen a, n⟩ t).1 = .ok () ∨ d.replace ⟨byteLen a, n⟩ t = (.err, d) := by
  have hm := byteToChar_mono d.text ho
  simp only [Doc.replace, textRange, replaceRaw, deleteRaw]
  by_cases hn : n > byteLen d.text
  · simp [hn]
  · simp only [hn, if_false, hm, if_true]
    left
    have e : byteToChar d.text (byteLen a) = a.length := by rw [h, byteToChar_append]
    have e2 : List.take a.length d.text = a := by rw [h]; simp
    simp only [insertRaw, e, e2]
    rw [if_neg (by rw [byteLen_append]; omega)]

example : (exDoc.replace ⟨1, 2⟩ "x".toList).1 = .ok () := by decide

/-! ## C14 -/

/-- **C14.** In every reachable document the undo list is within its entry limit. -/
theorem C14_entry_limit (d : Doc) (h : Reachable d) :
    d.hist.undo.length ≤ d.hist.cfg.maxEntries := (inv_reachable h).count

/-- **C14.** In every reachable document the memory counter is the memory of the stored entries. -/
theorem C14_memory_counter (d : Doc) (h : Reachable d) :
    d.hist.mem = charge d.hist.undo + charge d.hist.redo := (inv_reachable h).wf

/-- **C14.** In every reachable document the memory is within the configured budget
(a budget of 0 means unlimited). -/
theorem C14_memory_limit (d : Doc) (h : Reachable d) :
    d.hist.cfg.maxMemory = 0 ∨ d.hist.mem ≤ d.hist.cfg.maxMemory := (inv_reachable h).memory

example : Reachable (Call.run (Call.run ⟨[], Stack.new ⟨1, 130, 100⟩⟩ (.edit (.insert 0 ['a'])))
    (.edit (.insert 0 ['b']))) := .step _ _ (.step _ _ (.init _ _))
example : (Call.run (Call.run ⟨[], Stack.new ⟨1, 130, 100⟩⟩ (.edit (.insert 0 ['a'])))
    (.edit (.insert 0 ['b']))).hist = ⟨⟨1, 130, 100⟩, [⟨.insert 0 ['b'], 112⟩], [], 112⟩ := by decide

/-- **C14.** The limits evict oldest entries first: what a recorded edit leaves on the undo list
is the new entry followed by the newest old ones, as many as fit. -/
theorem C14_evicts_oldest (d : Doc) (h : Reachable d) (e : Entry) :
    ∃ k, (d.hist.push e).undo = (e :: d.hist.undo).take k ∧ (d.hist.push e).redo = [] ∧
      ∀ j, j ≤ d.hist.cfg.maxEntries → j ≤ d.hist.undo.length + 1 →
        (d.hist.cfg.maxMemory = 0 ∨ charge ((e :: d.hist.undo).take j) ≤ d.hist.cfg.maxMemory) →
        j ≤ k := by
  obtain ⟨k, h1, h2, _, _, _, _, h7⟩ := push_spec (inv_reachable h).wf e
  exact ⟨k, h1, h2, h7⟩

example : ((Stack.new ⟨2, 0, 100⟩).push ⟨.insert 0 ['b'], 112⟩).undo = [⟨.insert 0 ['b'], 112⟩] := by
  decide

/-! ## C12 -/

/-- The history has room for one more edit of the given cost. -/
def HasRoom (d : Doc) (edits : List Edit) : Prop :=
  edits.length ≤ d.hist.cfg.maxEntries ∧
  (d.hist.cfg.maxMemory = 0 ∨
    (edits.map (Edit.cost d.hist.cfg.opSize)).sum ≤ d.hist.cfg.maxMemory)

/-- **C12.** After any sequence of edits at whole-character positions on any reachable document,
as many undos restore the original text exactly — provided the limits leave room for the edits and
replacements keep the byte length.  (The full claim has no length condition; it is false, see
`C12_undo_replace_violated`.) -/
theorem C12_undo_restores_partial (d : Doc) (hd : Reachable d) (es : List Edit) (s : Str)
    (h : Splices d.text es s) (hl : ∀ e ∈ es, e.SameLength) (hr : HasRoom d es) :
    (runAll d es).text = s ∧
    ∃ d', undoTimes es.length (runAll d es) = some d' ∧ d'.text = d.text := by
  obtain ⟨h1, _, _, E, rest, h4, h5, _, h7⟩ := splices_chain (inv_reachable hd) h hl hr.1 hr.2
  refine ⟨h1, ?_⟩
  rw [← h5]
  exact undoTimes_chain E _ rest _ h4 (h1 ▸ h7)

example : Splices "ab".toList [.insert 1 "é".toList, .delete ⟨0, 1⟩] "éb".toList :=
  Splices.snoc (s' := "aéb".toList)
    (Splices.snoc (es := []) (Splices.nil _) (Splice.insert ['a'] ['b'] ['é']))
    (Splice.delete [] ['a'] "éb".toList)
example : (undoTimes 2 (runAll ⟨"ab".toList, Stack.new ⟨50, 0, 100⟩⟩
    [.insert 1 "é".toList, .delete ⟨0, 1⟩])).map (·.text) = some "ab".toList := by decide

/-- **C12.** Single insert: undo restores the text. -/
theorem C12_undo_insert (d : Doc) (hd : Reachable d) (a b t : Str) (h : d.text = a ++ b)
    (hr : HasRoom d [.insert (byteLen a) t]) :
    ∃ d', (d.insert (byteLen a) t).2.undo = (.ok (), d') ∧ d'.text = d.text := by
  have hsp : Splices d.text [.insert (byteLen a) t] (a ++ t ++ b) := by
    rw [h]; exact Splices.snoc (es := []) (Splices.nil _) (Splice.insert a b t)
  obtain ⟨_, d', h2, h3⟩ := C12_undo_restores_partial d hd _ _ hsp (by simp [Edit.SameLength]) hr
  refine ⟨d', ?_, h3⟩
  simp only [runAll, Edit.run, List.length_cons, List.length_nil, undoTimes] at h2
  split at h2
  · next u d2 hu => injection h2 with h2; rw [hu, h2]
  · simp at h2

example : (((exDoc.insert 3 "é".toList).2.undo).2).text = exDoc.text := by decide

/-- **C12.** Single delete: undo restores the text. -/
theorem C12_undo_delete (d : Doc) (hd : Reachable d) (a m b : Str) (h : d.text = a ++ m ++ b)
    (hr : HasRoom d [.delete ⟨byteLen a, byteLen a + byteLen m⟩]) :
    ∃ d', (d.delete ⟨byteLen a, byteLen a + byteLen m⟩).2.undo = (.ok (), d') ∧ d'.text = d.text := by
  have hsp : Splices d.text [.delete ⟨byteLen a, byteLen a + byteLen m⟩] (a ++ b) := by
    rw [h]; exact Splices.snoc (es := []) (Splices.nil _) (Splice.delete a m b)
  obtain ⟨_, d', h2, h3⟩ := C12_undo_restores_partial d hd _ _ hsp (by simp [Edit.SameLength]) hr
  refine ⟨d', ?_, h3⟩
  simp only [runAll, Edit.run, List.length_cons, List.length_nil, undoTimes] at h2
  split at h2
  · next u d2 hu => injection h2 with h2; rw [hu, h2]
  · simp at h2

example : (((exDoc.delete ⟨1, 3⟩).2.undo).2).text = exDoc.text := by decide

/-- **C12, disagreement.** Undoing a replacement by a longer text leaves part of the replacement
behind. -/
theorem C12_undo_replace_violated :
    ¬ ∀ (d : Doc) (a m b n : Str), Reachable d → d.text = a ++ m ++ b →
        HasRoom d [.replace ⟨byteLen a, byteLen a + byteLen m⟩ n] →
        ((d.replace ⟨byteLen a, byteLen a + byteLen m⟩ n).2.undo).2.text = d.text := by
  intro h
  have := h ⟨"abc".toList, Stack.new ⟨50, 0, 100⟩⟩ ['a'] ['b'] ['c'] "xyz".toList (.init _ _)
    (by decide) (by simp [HasRoom, Stack.new])
  revert this; decide

/-- **C12.** What undoing a replacement does in general: it removes as many bytes as the *old* text
had, so it restores the text exactly when old and new text have the same byte length (or, by luck,
when the surplus compensates). Here: whenever the new text is longer and splits at that length, its
tail stays behind. -/
theorem C12_undo_replace_leaves_tail (d : Doc) (hd : Reachable d) (a m b n1 n2 : Str)
    (h : d.text = a ++ m ++ b) (hn : byteLen n1 = byteLen m)
    (hr : HasRoom d [.replace ⟨byteLen a, byteLen a + byteLen m⟩ (n1 ++ n2)]) :
    ((d.replace ⟨byteLen a, byteLen a + byteLen m⟩ (n1 ++ n2)).2.undo).2.text = a ++ m ++ n2 ++ b := by
  have hinv := inv_reachable hd
  have hrep : d.replace ⟨byteLen a, byteLen a + byteLen m⟩ (n1 ++ n2) =
      (.ok (), Doc.record { d with text := a ++ (n1 ++ n2) ++ b }
        (.replace ⟨byteLen a, byteLen a + byteLen m⟩ m (n1 ++ n2)) replaceDesc) := by
    simp only [Doc.replace, h, textRange_at, replaceRaw_at]
  obtain ⟨rest', hk⟩ := push_keeps (E := []) (rest := d.hist.undo) hinv.wf
    ⟨.replace ⟨byteLen a, byteLen a + byteLen m⟩ m (n1 ++ n2),
      Op.memory d.hist.cfg (.replace ⟨byteLen a, byteLen a + byteLen m⟩ m (n1 ++ n2)) + replaceDesc⟩
    rfl (by simpa using hr.1) (by
      have := hr.2
      simp only [List.map_cons, List.map_nil, List.sum_cons, List.sum_nil, Edit.cost, Range.len] at this
      simp only [Op.memory, replaceDesc, charge_nil]
      omega)
  rw [hrep]
  simp only [Doc.record, Doc.undo, Stack.popUndo, hk, List.cons_append, undoText]
  rw [show a ++ (n1 ++ n2) ++ b = a ++ n1 ++ (n2 ++ b) by simp, ← hn, replaceRaw_at]
  simp

example : (((Doc.mk "abc".toList (Stack.new ⟨50, 0, 100⟩)).replace ⟨1, 2⟩ "xyz".toList).2.undo).2.text
    = "abyzc".toList := by decide

/-! ## C13 -/

/-- **C13.** Redo right after undo restores the text the undo removed, for any edit at
whole-character positions on any reachable document (missing: more than one redo, see
`C13_redo_twice_violated`; replacements that change the length). -/
theorem C13_redo_after_undo_partial (d : Doc) (hd : Reachable d) (e : Edit) (s : Str)
    (h : Splice d.text e s) (hl : e.SameLength) (hr : HasRoom d [e]) :
    ∃ d1 d2, (e.run d).2.undo = (.ok (), d1) ∧ d1.text = d.text ∧
      d1.redo = (.ok (), d2) ∧ d2.text = s := by
  have hinv := inv_reachable hd
  obtain ⟨op, desc, hrun, hu, hre, hc⟩ := undo_of_splice h hl d rfl
  obtain ⟨rest', hk⟩ := push_keeps (E := []) (rest := d.hist.undo) hinv.wf
    ⟨op, op.memory d.hist.cfg + desc⟩ rfl (by simpa using hr.1) (by
      have := hr.2
      simp only [List.map_cons, List.map_nil, List.sum_cons, List.sum_nil] at this
      simp only [charge_nil]
      omega)
  have key : ∀ (d1 : Doc) en es, d1.text = d.text → d1.hist.redo = en :: es → en.op = op →
      ∃ d2, d1.redo = (.ok (), d2) ∧ d2.text = s := by
    intro d1 en es h1 h2 h3
    simp only [Doc.redo, Stack.popRedo, h2, h3, h1, hre]
    exact ⟨_, rfl, rfl⟩
  rw [hrun]
  simp only [Doc.record, Doc.undo, Stack.popUndo, hk, List.cons_append, hu]
  obtain ⟨d2, h1, h2⟩ := key ⟨d.text, Stack.pushRedo { (d.hist.push ⟨op, op.memory d.hist.cfg + desc⟩)
    with undo := [] ++ rest', mem := (d.hist.push ⟨op, op.memory d.hist.cfg + desc⟩).mem -
      (op.memory d.hist.cfg + desc) } ⟨op, op.memory d.hist.cfg + desc⟩⟩ _ _ rfl rfl rfl
  exact ⟨_, d2, rfl, rfl, h1, h2⟩

example : ((((exDoc.delete ⟨1, 3⟩).2.undo).2.redo).2).text = "hllo".toList := by decide

/-- **C13, disagreement.** After two undos, two redos do not work: the first redo discards the
remaining redo entries. -/
theorem C13_redo_twice_violated :
    ¬ ∀ (d : Doc) (es : List Edit) (s : Str), Reachable d → Splices d.text es s →
        (∀ e ∈ es, e.SameLength) → HasRoom d es →
        ∃ d1 d2, undoTimes es.length (runAll d es) = some d1 ∧
          redoTimes es.length d1 = some d2 ∧ d2.text = s := by
  intro h
  obtain ⟨d1, d2, h1, h2, h3⟩ := h ⟨[], Stack.new ⟨50, 0, 100⟩⟩ [.insert 0 ['a'], .insert 1 ['b']]
    ['a', 'b'] (.init _ _)
    (Splices.snoc (es := [_]) (Splices.snoc (es := []) (Splices.nil _) (Splice.insert [] [] ['a']))
      (Splice.insert ['a'] [] ['b'])) (by simp [Edit.SameLength]) (by simp [HasRoom, Stack.new])
  have e1 : undoTimes 2 (runAll ⟨[], Stack.new ⟨50, 0, 100⟩⟩ [.insert 0 ['a'], .insert 1 ['b']]) =
      some d1 := h1
  have e2 : (undoTimes 2 (runAll ⟨[], Stack.new ⟨50, 0, 100⟩⟩
      [.insert 0 ['a'], .insert 1 ['b']])).bind (redoTimes 2) = none := by decide
  rw [e1, Option.bind_some, show redoTimes 2 d1 = some d2 from h2] at e2
  simp at e2

/-- **C13.** Every successful redo empties the redo list, so no second redo can follow. -/
theorem C13_redo_clears (d d' : Doc) (hd : Reachable d) (h : d.redo = (.ok (), d')) :
    d'.hist.redo = [] := by
  unfold Doc.redo at h
  split at h
  · simp at h
  · next e s hp =>
    split at h
    · simp only [Prod.mk.injEq, true_and] at h
      subst h
      obtain ⟨_, _, h2, _⟩ := push_spec (inv_popRedo (inv_reachable hd) hp).wf e
      exact h2
    · simp only [Prod.mk.injEq] at h
      simp_all

example : ((((exDoc.delete ⟨1, 3⟩).2.undo).2.redo).2).hist.redo = [] := by decide

/-! ## C53 — undo of commands run through `execute_command` -/

/-- **C53.** Undo after an insert command run through `execute_command` restores the text
(missing: delete commands, see `C53_undo_execute_violated`). -/
theorem C53_undo_execute_insert_partial (d : Doc) (hd : Reachable d) (a b t : Str)
    (h : d.text = a ++ b) (hr : HasRoom d [.insert (byteLen a) t]) :
    (d.execInsert (byteLen a) t).1 = .ok () ∧ (d.execInsert (byteLen a) t).2.text = a ++ t ++ b ∧
    ∃ d', (d.execInsert (byteLen a) t).2.undo = (.ok (), d') ∧ d'.text = d.text := by
  have hinv := inv_reachable hd
  have hcost := hr.2
  simp only [List.map_cons, List.map_nil, List.sum_cons, List.sum_nil, Edit.cost] at hcost
  by_cases he : byteLen t = 0
  · have ht : t = [] := by
      cases t with
      | nil => rfl
      | cons c cs => have := utf8Size_pos c; rw [byteLen_cons] at he; omega
    subst ht
    have hrun : d.execInsert (byteLen a) [] =
        (.ok (), Doc.record { d with text := a ++ [] ++ b } (.insert (byteLen a) []) insertDesc) := by
      simp only [Doc.execInsert, h, insertRaw_at]
      rw [new_of_le (by omega)]
      simp only [Range.isEmpty, byteLen, List.map_nil, List.sum_nil, Nat.add_zero, BEq.rfl, if_true]
      have := textRange_at a [] b
      simp only [byteLen, List.map_nil, List.sum_nil, Nat.add_zero] at this
      rw [this]
    obtain ⟨rest', hk⟩ := push_keeps (E := []) (rest := d.hist.undo) hinv.wf
      ⟨.insert (byteLen a) [], Op.memory d.hist.cfg (.insert (byteLen a) []) + insertDesc⟩ rfl
      (by simpa using hr.1) (by simp only [Op.memory, insertDesc, charge_nil]; omega)
    rw [hrun]
    refine ⟨rfl, rfl, ?_⟩
    simp only [Doc.record, Doc.undo, Stack.popUndo, hk, List.cons_append, undoText]
    rw [new_of_le (by omega), deleteRaw_at]
    exact ⟨_, rfl, h.symm⟩
  · have hrun : d.execInsert (byteLen a) t =
        (.ok (), Doc.record { d with text := a ++ t ++ b }
          (.replace ⟨byteLen a, byteLen a + byteLen t⟩ [] t) insertDesc) := by
      simp only [Doc.execInsert, h, insertRaw_at]
      rw [new_of_le (by omega), textRange_at]
      rw [if_neg (by simp only [Range.isEmpty, beq_iff_eq]; omega)]
    obtain ⟨rest', hk⟩ := push_keeps (E := []) (rest := d.hist.undo) hinv.wf
      ⟨.replace ⟨byteLen a, byteLen a + byteLen t⟩ [] t,
        Op.memory d.hist.cfg (.replace ⟨byteLen a, byteLen a + byteLen t⟩ [] t) + insertDesc⟩ rfl
      (by simpa using hr.1) (by simp only [Op.memory, insertDesc, charge_nil, byteLen_nil]; omega)
    rw [hrun]
    refine ⟨rfl, rfl, ?_⟩
    simp only [Doc.record, Doc.undo, Stack.popUndo, hk, List.cons_append, undoText, replaceRaw_at]
    exact ⟨_, rfl, by simp [h]⟩

example : (((exDoc.execInsert 3 "é".toList).2.undo).2).text = exDoc.text := by decide

/-- **C53, disagreement.** A delete command run through `execute_command` is recorded as an empty
insertion: undo reports success and restores nothing. -/
theorem C53_undo_execute_violated :
    ¬ ∀ (d : Doc) (a m b : Str), Reachable d → d.text = a ++ m ++ b →
        HasRoom d [.delete ⟨byteLen a, byteLen a + byteLen m⟩] →
        ((d.execDelete ⟨byteLen a, byteLen a + byteLen m⟩).2.undo).2.text = d.text := by
  intro h
  have := h ⟨"abc".toList, Stack.new ⟨50, 0, 100⟩⟩ ['a'] ['b'] ['c'] (.init _ _) (by decide)
    (by simp [HasRoom, Stack.new])
  revert this; decide

end Verif.Props
