import Verif.Lemmas.Batch
import Verif.Lemmas.StrX
/-!
# C113: batches of commands and what the history keeps of them
-/
namespace Verif.Props
open Verif Verif.Pos Verif.Doc Verif.Batch Verif.Spec Verif.Spec.Batch

/-- **In order.** A batch of text edits does what the edits do one after another; it reports success, the smallest range containing the
places of all of them (each as it was right after the edit), and the end of the last one as cursor. -/
theorem C113_order {s s' : Str} {es : List Edit} (h : Splices s es s') :
    ∃ r, batch (es.map cmdOf) s = (.ok r, s') ∧ r.ok = true ∧ r.changed = !es.isEmpty ∧
      r.cursor = es.getLast?.map (fun e => (place e).2) ∧
      (es = [] → r.range = none) ∧
      (es ≠ [] → ∃ rg, r.range = some rg ∧ (∀ e ∈ es, rg.start ≤ (place e).1 ∧ (place e).2 ≤ rg.fin) ∧
        (∃ e ∈ es, rg.start = (place e).1) ∧ ∃ e ∈ es, rg.fin = (place e).2) := by
  induction h with
  | nil => exact ⟨success, rfl, rfl, rfl, rfl, fun _ => rfl, fun h => absurd rfl h⟩
  | @snoc s' s'' es e hs he ih =>
    obtain ⟨r, hb, hok, _, _, hnil, hcons⟩ := ih
    have hb' := batch_snoc hb hok he
    rw [List.map_append, List.map_cons, List.map_nil]
    refine ⟨_, hb', rfl, by simp [join, change], by simp [join, change], fun h => by simp at h, fun _ => ?_⟩
    by_cases hes : es = []
    · refine ⟨⟨(place e).1, (place e).2⟩, ?_, ?_, ?_⟩
      · simp [join, change, hnil hes, joinRange]
      · intro x hx
        rw [hes] at hx
        obtain rfl := List.mem_singleton.1 (by simpa using hx : x ∈ [e])
        exact ⟨Nat.le_refl _, Nat.le_refl _⟩
      · exact ⟨⟨e, by simp, rfl⟩, e, by simp, rfl⟩
    · obtain ⟨rg, hrg, hall, ⟨e1, he1, h1⟩, e2, he2, h2⟩ := hcons hes
      refine ⟨rg.union ⟨(place e).1, (place e).2⟩, by simp [join, change, hrg, joinRange], ?_, ?_, ?_⟩
      · intro x hx
        simp only [Range.union]
        rcases List.mem_append.1 hx with hx | hx
        · have := hall x hx; omega
        · obtain rfl := List.mem_singleton.1 hx; omega
      · simp only [Range.union]
        by_cases hm : rg.start ≤ (place e).1
        · exact ⟨e1, List.mem_append_left _ he1, by omega⟩
        · exact ⟨e, by simp, by omega⟩
      · simp only [Range.union]
        by_cases hm : (place e).2 ≤ rg.fin
        · exact ⟨e2, List.mem_append_left _ he2, by omega⟩
        · exact ⟨e, by simp, by omega⟩

example : Splices "abcd".toList [.insert 1 "xy".toList, .delete ⟨0, 1⟩] "xybcd".toList :=
  .snoc (.snoc (.nil _) (.insert ['a'] "bcd".toList "xy".toList)) (.delete [] ['a'] "xybcd".toList)
example : batch [insertCmd 1 "xy".toList, deleteCmd ⟨0, 1⟩] "abcd".toList =
    (.ok ⟨true, some ⟨0, 3⟩, some 0, true⟩, "xybcd".toList) := by decide

/-- **Stopping.** The first command that fails, by an error, a panic or by reporting failure, ends the batch: the commands behind it are not
carried out, and the text is as that command left it. -/
theorem C113_stop (cs ds : List Cmd) (c : Cmd) (s s1 s2 : Str) (r : Result) (hb : batch cs s = (.ok r, s1)) (hr : r.ok = true) :
    (c s1 = (.err, s2) → batch (cs ++ c :: ds) s = (.err, s2)) ∧
    (c s1 = (.panic, s2) → batch (cs ++ c :: ds) s = (.panic, s2)) ∧
    (∀ r', c s1 = (.ok r', s2) → r'.ok = false → batch (cs ++ c :: ds) s = (.ok failure, s2)) := by
  have e : batch (cs ++ c :: ds) s = loop r (c :: ds) s1 := by
    have e1 : batch (cs ++ c :: ds) s = next (fun r => loop r (c :: ds)) (batch cs s) := loop_append _ rfl _ _ _
    rw [e1, hb]
    simp [next, hr]
  refine ⟨fun h => ?_, fun h => ?_, fun r' h hr' => ?_⟩
  · rw [e]; simp [loop, h]
  · rw [e]; simp [loop, h]
  · rw [e]; simp [loop, h, hr']

example : batch [insertCmd 1 "xy".toList, insertCmd 9 "z".toList, deleteCmd ⟨0, 1⟩] "abcd".toList = (.err, "axybcd".toList) := by decide

/-- **Batches in batches.** A batch inside a batch does the same as its commands in its place, whatever the commands are. -/
theorem C113_nested (cs ds es : List Cmd) (s : Str) : batch (cs ++ batch ds :: es) s = batch (cs ++ ds ++ es) s := by
  have h1 : batch (cs ++ batch ds :: es) s = next (fun r => loop r (batch ds :: es)) (batch cs s) := loop_append _ rfl _ _ _
  have h2 : batch (cs ++ ds ++ es) s = next (fun r => loop r (ds ++ es)) (batch cs s) := by
    rw [List.append_assoc]; exact loop_append _ rfl _ _ _
  rw [h1, h2]
  unfold next
  split
  · next r s' _ =>
    by_cases hr : r.ok = true
    · rw [if_pos hr, if_pos hr]
      exact nested r hr _ _ _
    · rw [if_neg hr, if_neg hr]
  · rfl

example : batch [insertCmd 0 "a".toList, batch [insertCmd 1 "b".toList, insertCmd 2 "c".toList]] [] =
    (.ok ⟨true, some ⟨0, 3⟩, some 3, true⟩, "abc".toList) := by decide

/-- **Not all or nothing.** A batch that fails leaves the changes made before the failure in the text, and nothing is recorded: they cannot
be undone. -/
theorem C113_atomic_violated : ∃ (d : Doc) (desc : Str) (cs : List Cmd), Reachable d ∧
    (exec d desc (batch cs)).1 = .err ∧ (exec d desc (batch cs)).2.text ≠ d.text ∧ (exec d desc (batch cs)).2.undo.1 = .err :=
  ⟨⟨"abc".toList, Stack.new ⟨50, 0, 100⟩⟩, "Rename style".toList, [deleteCmd ⟨0, 2⟩, insertCmd 5 "x".toList], .init _ _,
    by decide, by decide, by decide⟩

/-- **The reported range**, for edits that follow one another in the text: outside of it nothing has changed.  (Missing: edits in another
order, see `C113_range_violated`.) -/
theorem C113_range_partial {s s' : Str} {es : List Edit} {k : Nat} (h : Forward s es s' k) (hne : es ≠ []) :
    ∃ r a m m' b, batch (es.map cmdOf) s = (.ok r, s') ∧ r.ok = true ∧ s = a ++ m ++ b ∧ s' = a ++ m' ++ b ∧
      r.range = some ⟨byteLen a, byteLen a + byteLen m'⟩ ∧ r.cursor = some (byteLen a + byteLen m') ∧ r.changed = true ∧
      k = byteLen a + byteLen m' := by
  induction h with
  | nil => exact absurd rfl hne
  | @snoc s' s'' es e k hs he hk ih =>
    rw [List.map_append, List.map_cons, List.map_nil]
    obtain ⟨a1, m1, n1, b1, e1, e2, e3, e4⟩ := splice_place he
    by_cases hes : es = []
    · subst hes
      have hss : s' = s := by
        generalize hE : ([] : List Edit) = E at hs
        cases hs with
        | nil => rfl
        | snoc _ _ _ => simp at hE
      subst hss
      have hb' := batch_snoc (cs := []) (r := success) (s := s') rfl rfl he
      refine ⟨_, a1, m1, n1, b1, hb', rfl, e1, e2, ?_, ?_, rfl, e4⟩
      · simp [join, change, success, joinRange, e3, e4]
      · simp [join, change, e4]
    · obtain ⟨r, a, m, m', b, hb, hok, h1, h2, h3, h4, _, h5⟩ := ih hes
      have hb' := batch_snoc hb hok he
      rw [h2] at e1
      obtain ⟨z, hz1, hz2⟩ := behind e1 (by rw [byteLen_append]; omega)
      refine ⟨_, a, m ++ z ++ m1, m' ++ z ++ n1, b1, hb', rfl, ?_, ?_, ?_, ?_, by simp [join, change], ?_⟩
      · rw [h1, hz2]; simp
      · rw [e2, hz1]; simp
      · have hl : byteLen a1 = byteLen a + byteLen m' + byteLen z := by rw [hz1, byteLen_append, byteLen_append]
        simp only [join, change, h3, joinRange, Range.union, e3, e4, byteLen_append, Option.some.injEq, Range.mk.injEq]
        omega
      · have hl : byteLen a1 = byteLen a + byteLen m' + byteLen z := by rw [hz1, byteLen_append, byteLen_append]
        simp only [join, change, Option.some_or, e4, byteLen_append, Option.some.injEq]
        omega
      · have hl : byteLen a1 = byteLen a + byteLen m' + byteLen z := by rw [hz1, byteLen_append, byteLen_append]
        simp only [byteLen_append]
        omega

example : Forward "abcd".toList [.insert 1 "xy".toList, .replace ⟨4, 5⟩ "Q".toList] "axybQd".toList 5 :=
  .snoc (.snoc (.nil _) (.insert ['a'] "bcd".toList "xy".toList) (Nat.zero_le _)) (.replace "axyb".toList ['c'] ['d'] ['Q']) (by decide)

/-- A later edit further to the front moves the places of the earlier ones, but not the reported range: the change lies outside of it. -/
theorem C113_range_violated : ∃ (s s' : Str) (es : List Edit) (r : Result) (rg : Range), Splices s es s' ∧
    batch (es.map cmdOf) s = (.ok r, s') ∧ r.range = some rg ∧
    ∀ a m m' b, s = a ++ m ++ b → s' = a ++ m' ++ b → rg ≠ ⟨byteLen a, byteLen a + byteLen m'⟩ := by
  refine ⟨"abcdef".toList, "XYZabcdeNf".toList, [.insert 5 "N".toList, .insert 0 "XYZ".toList], ⟨true, some ⟨0, 6⟩, some 3, true⟩, ⟨0, 6⟩,
    .snoc (.snoc (.nil _) (.insert "abcde".toList ['f'] ['N'])) (.insert [] "abcdeNf".toList "XYZ".toList), by decide, rfl, ?_⟩
  intro a m m' b h1 h2 hr
  obtain ⟨e1, e2⟩ := Range.mk.inj hr
  have hd := dropBytes_append (a ++ m') b
  rw [← h2, byteLen_append, ← e2] at hd
  have : dropBytes "XYZabcdeNf".toList 6 = some "deNf".toList := by decide
  rw [this] at hd
  obtain rfl := Option.some.inj hd
  have hs : "deNf".toList <:+ "abcdef".toList := ⟨a ++ m, h1.symm⟩
  revert hs
  decide

/-- **Undoing commands that only put text in.** If a command carried out by the document puts one stretch of text into the text and reports it,
under a description without the words `batch` and `Multiple`, undoing restores the text.
Missing: commands that take text away or change several places, and descriptions with the words `batch` or `Multiple`, which are
not undone (`C113_undo_violated`, `C113_direct_violated`). -/
theorem C113_undo_partial (d : Doc) (hd : Reachable d) (desc : Str) (c : Cmd) (a x b : Str) (cur : Nat) (hx : x ≠ []) (ht : d.text = a ++ b)
    (hc : c d.text = (.ok (change ⟨byteLen a, byteLen a + byteLen x⟩ cur), a ++ x ++ b))
    (h1 : ∀ u v, desc ≠ u ++ "batch".toList ++ v) (h2 : ∀ u v, desc ≠ u ++ "Multiple".toList ++ v)
    (hn : 1 ≤ d.hist.cfg.maxEntries)
    (hm : d.hist.cfg.maxMemory = 0 ∨ d.hist.cfg.opSize + byteLen x + byteLen desc ≤ d.hist.cfg.maxMemory) :
    (exec d desc c).1 = .ok (change ⟨byteLen a, byteLen a + byteLen x⟩ cur) ∧ (exec d desc c).2.text = a ++ x ++ b ∧
    ∃ d', (exec d desc c).2.undo = (.ok (), d') ∧ d'.text = d.text := by
  have hinv := inv_reachable hd
  have hpos : 0 < byteLen x := by
    cases x with
    | nil => exact absurd rfl hx
    | cons y ys => have h0 := utf8Size_pos y; rw [byteLen_cons]; omega
  have hop : operation desc (a ++ x ++ b) (change ⟨byteLen a, byteLen a + byteLen x⟩ cur) =
      .ok (.replace ⟨byteLen a, byteLen a + byteLen x⟩ [] x) := by
    unfold operation change
    dsimp only
    rw [if_neg (by simp only [Range.isEmpty, beq_iff_eq]; omega), containsStr_false.2 h1, containsStr_false.2 h2, textRange_at]
    rfl
  have hrun : exec d desc c = (.ok (change ⟨byteLen a, byteLen a + byteLen x⟩ cur),
      Doc.record { d with text := a ++ x ++ b } (.replace ⟨byteLen a, byteLen a + byteLen x⟩ [] x) (byteLen desc)) := by
    unfold exec
    rw [hc]
    dsimp only
    rw [show (change ⟨byteLen a, byteLen a + byteLen x⟩ cur).changed = true from rfl, if_pos rfl, hop]
    rfl
  obtain ⟨rest', hk⟩ := push_keeps (E := []) (rest := d.hist.undo) hinv.wf
    ⟨.replace ⟨byteLen a, byteLen a + byteLen x⟩ [] x, Op.memory d.hist.cfg (.replace ⟨byteLen a, byteLen a + byteLen x⟩ [] x) + byteLen desc⟩ rfl
    (by simpa using hn) (by simp only [Op.memory, charge_nil, byteLen_nil]; omega)
  rw [hrun]
  refine ⟨rfl, rfl, ?_⟩
  simp only [Doc.record, Doc.undo, Stack.popUndo, hk, List.cons_append, undoText, replaceRaw_at]
  exact ⟨_, rfl, by simp [ht]⟩

/-- In particular a batch of texts typed one after another is undone as one.
Missing: batches of other commands (`C113_undo_violated`). -/
theorem C113_typed_partial (d : Doc) (hd : Reachable d) (desc : Str) (ts : List Str) (a b : Str) (ht : d.text = a ++ b) (hx : ts.flatten ≠ [])
    (h1 : ∀ u v, desc ≠ u ++ "batch".toList ++ v) (h2 : ∀ u v, desc ≠ u ++ "Multiple".toList ++ v)
    (hn : 1 ≤ d.hist.cfg.maxEntries)
    (hm : d.hist.cfg.maxMemory = 0 ∨ d.hist.cfg.opSize + byteLen ts.flatten + byteLen desc ≤ d.hist.cfg.maxMemory) :
    (exec d desc (batch ((typed (byteLen a) ts).map cmdOf))).2.text = a ++ ts.flatten ++ b ∧
    ∃ d', (exec d desc (batch ((typed (byteLen a) ts).map cmdOf))).2.undo = (.ok (), d') ∧ d'.text = d.text := by
  have hc : batch ((typed (byteLen a) ts).map cmdOf) d.text =
      (.ok (change ⟨byteLen a, byteLen a + byteLen ts.flatten⟩ (byteLen a + byteLen ts.flatten)), a ++ ts.flatten ++ b) := by
    rw [ht]
    clear ht h1 h2 hm hn
    have key : ∀ (ts : List Str) (cs : List Cmd) (y z : Str) (s : Str),
        batch cs s = (.ok (change ⟨byteLen a, byteLen a + byteLen y⟩ (byteLen a + byteLen y)), a ++ y ++ b) →
        batch (cs ++ (typed (byteLen a + byteLen y) ts).map cmdOf) s =
          (.ok (change ⟨byteLen a, byteLen a + byteLen (y ++ ts.flatten)⟩ (byteLen a + byteLen (y ++ ts.flatten))), a ++ (y ++ ts.flatten) ++ b) := by
      intro ts
      induction ts with
      | nil => intro cs y z s h; simpa [typed] using h
      | cons t ts ih =>
        intro cs y z s h
        have hsp : Splice (a ++ y ++ b) (.insert (byteLen a + byteLen y) t) (a ++ (y ++ t) ++ b) := by
          have := Splice.insert (a ++ y) b t
          rw [byteLen_append] at this
          simpa [List.append_assoc] using this
        have hb := batch_snoc h rfl hsp
        have hj : join (change ⟨byteLen a, byteLen a + byteLen y⟩ (byteLen a + byteLen y))
            (change ⟨(place (.insert (byteLen a + byteLen y) t)).1, (place (.insert (byteLen a + byteLen y) t)).2⟩
              (place (.insert (byteLen a + byteLen y) t)).2) =
            change ⟨byteLen a, byteLen a + byteLen (y ++ t)⟩ (byteLen a + byteLen (y ++ t)) := by
          simp only [join, change, joinRange, Range.union, place, byteLen_append, Option.some_or, Bool.or_self, Result.mk.injEq, true_and,
            Option.some.injEq, Range.mk.injEq, and_true]
          omega
        rw [hj] at hb
        have := ih (cs ++ [cmdOf (.insert (byteLen a + byteLen y) t)]) (y ++ t) z s hb
        rw [byteLen_append, ← Nat.add_assoc] at this
        simpa [typed, List.append_assoc, byteLen_append, Nat.add_assoc] using this
    cases ts with
    | nil => exact absurd rfl hx
    | cons t ts =>
      have h0 : batch [cmdOf (.insert (byteLen a) t)] (a ++ b) =
          (.ok (change ⟨byteLen a, byteLen a + byteLen t⟩ (byteLen a + byteLen t)), a ++ t ++ b) := by
        have := batch_snoc (cs := []) (r := success) (s := a ++ b) rfl rfl (Splice.insert a b t)
        rw [List.nil_append] at this
        rw [this]
        rfl
      simpa [typed] using key ts _ t [] _ h0
  have := C113_undo_partial d hd desc _ a ts.flatten b _ hx ht hc h1 h2 hn hm
  exact ⟨this.2.1, this.2.2⟩

example : typed 2 ["ab".toList, "c".toList] = [.insert 2 "ab".toList, .insert 4 "c".toList] := rfl

/-- **Not undone.** Of other commands too little is recorded: undoing a batch under a description with the word `batch` succeeds without
doing anything; undoing a replacement removes the new text without bringing back the old; undoing a batch of insertions at two places
also removes the text in between, which was there before. -/
theorem C113_undo_violated :
    (∃ (d : Doc) (desc : Str) (cs : List Cmd), Reachable d ∧ (exec d desc (batch cs)).2.text ≠ d.text ∧
      (exec d desc (batch cs)).2.undo.1 = .ok () ∧ (exec d desc (batch cs)).2.undo.2.text = (exec d desc (batch cs)).2.text) ∧
    (∃ (d : Doc) (r : Range) (t : Str), Reachable d ∧ d.text = "Hello".toList ∧
      (exec d "Replace text".toList (replaceCmd r t)).2.text = "HEYlo".toList ∧
      (exec d "Replace text".toList (replaceCmd r t)).2.undo.1 = .ok () ∧
      (exec d "Replace text".toList (replaceCmd r t)).2.undo.2.text = "Hlo".toList) ∧
    ∃ (d : Doc) (cs : List Cmd), Reachable d ∧ d.text = "one two three".toList ∧
      (exec d "Quote".toList (batch cs)).2.text = "one <two> three".toList ∧
      (exec d "Quote".toList (batch cs)).2.undo.1 = .ok () ∧
      (exec d "Quote".toList (batch cs)).2.undo.2.text = "one  three".toList := by
  refine ⟨⟨⟨"abc".toList, Stack.new ⟨50, 0, 100⟩⟩, "batch edit".toList, [insertCmd 0 "x".toList, insertCmd 4 "y".toList], .init _ _,
      by decide, by decide, by decide⟩,
    ⟨⟨"Hello".toList, Stack.new ⟨50, 0, 100⟩⟩, ⟨1, 3⟩, "EY".toList, .init _ _, rfl, by decide, by decide, by decide⟩,
    ⟨⟨"one two three".toList, Stack.new ⟨50, 0, 100⟩⟩, [insertCmd 4 "<".toList, insertCmd 8 ">".toList], .init _ _, rfl,
      by decide, by decide, by decide⟩⟩

/-- **Not recorded.** Commands carried out with `command()`, `insert_at`, `delete_range` and `replace_range` are not recorded at all: undoing
then reverts an earlier edit, at a place that has moved. -/
theorem C113_direct_violated :
    (∃ (d : Doc) (pos : Nat) (t : Str), Reachable d ∧ (direct d (insertCmd pos t)).1 = .ok (change ⟨pos, pos + byteLen t⟩ (pos + byteLen t)) ∧
      (direct d (insertCmd pos t)).2.undo.1 = .err) ∧
    ∃ (d : Doc) (pos : Nat) (t : Str), Reachable d ∧ d.text = "cab".toList ∧ (direct d (insertCmd pos t)).2.text = "YYYcab".toList ∧
      (direct d (insertCmd pos t)).2.undo.2.text = "Ycab".toList ∧ (d.undo).2.text = "c".toList :=
  ⟨⟨⟨"abc".toList, Stack.new ⟨50, 0, 100⟩⟩, 1, "x".toList, .init _ _, by decide, by decide⟩,
    ⟨(Call.edit (.insert 1 "ab".toList)).run ⟨"c".toList, Stack.new ⟨50, 0, 100⟩⟩, 0, "YYY".toList, .step _ _ (.init _ _),
      by decide, by decide, by decide, by decide⟩⟩

end Verif.Props
