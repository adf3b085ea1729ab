import Verif.Spec.Doc
import Verif.Lemmas.Bytes
namespace Verif.Doc
open Verif Verif.Pos Verif.Spec

/-! ## Text operations at character boundaries -/

theorem byteToChar_append (a b : Str) : byteToChar (a ++ b) (byteLen a) = a.length := by
  induction a with
  | nil =>
    cases b with
    | nil => rfl
    | cons c cs =>
      have := utf8Size_pos c
      simp [byteToChar, byteLen]; omega
  | cons c cs ih =>
    simp only [List.cons_append, byteToChar, byteLen_cons]
    rw [if_pos (by omega), Nat.add_sub_cancel_left, ih]
    rfl

theorem byteToChar_mono (s : Str) {m n : Nat} (h : m ≤ n) : byteToChar s m ≤ byteToChar s n := by
  induction s generalizing m n with
  | nil => simp [byteToChar]
  | cons c cs ih =>
    simp only [byteToChar]
    split
    · rw [if_pos (by omega)]
      have := ih (m := m - c.utf8Size) (n := n - c.utf8Size) (by omega)
      omega
    · omega

theorem insertRaw_at (a b t : Str) :
    insertRaw (a ++ b) (byteLen a) t = (.ok (), a ++ t ++ b) := by
  unfold insertRaw
  rw [if_neg (by rw [byteLen_append]; omega)]
  simp [byteToChar_append]

theorem byteToChar_append2 (a m b : Str) :
    byteToChar (a ++ m ++ b) (byteLen a) = a.length ∧
    byteToChar (a ++ m ++ b) (byteLen a + byteLen m) = a.length + m.length := by
  constructor
  · rw [List.append_assoc]; exact byteToChar_append _ _
  · rw [← byteLen_append, byteToChar_append, List.length_append]

theorem deleteRaw_at (a m b : Str) :
    deleteRaw (a ++ m ++ b) ⟨byteLen a, byteLen a + byteLen m⟩ = (.ok (), a ++ b) := by
  unfold deleteRaw
  obtain ⟨h1, h2⟩ := byteToChar_append2 a m b
  simp only [h1, h2]
  rw [if_neg (by simp only [byteLen_append]; omega), if_pos (by omega)]
  simp only [List.append_assoc, List.take_left']
  rw [← List.append_assoc a m b, show a.length + m.length = (a ++ m).length by simp,
    List.drop_left]

theorem textRange_at (a m b : Str) :
    textRange (a ++ m ++ b) ⟨byteLen a, byteLen a + byteLen m⟩ = .ok m := by
  unfold textRange
  obtain ⟨h1, h2⟩ := byteToChar_append2 a m b
  simp only [h1, h2]
  rw [if_neg (by simp only [byteLen_append]; omega), if_pos (by omega)]
  simp

theorem replaceRaw_at (a m b n : Str) :
    replaceRaw (a ++ m ++ b) ⟨byteLen a, byteLen a + byteLen m⟩ n = (.ok (), a ++ n ++ b) := by
  unfold replaceRaw
  rw [deleteRaw_at]
  simp only
  exact insertRaw_at a b n

theorem new_of_le {a b : Nat} (h : a ≤ b) : Range.new a b = ⟨a, b⟩ := by
  unfold Range.new; rw [if_pos h]

/-! ## The stack -/

@[simp] theorem charge_nil : charge [] = 0 := rfl
@[simp] theorem charge_cons (e : Entry) (l : List Entry) : charge (e :: l) = e.mem + charge l := by
  simp [charge]
@[simp] theorem charge_append (l m : List Entry) : charge (l ++ m) = charge l + charge m := by
  simp [charge]
@[simp] theorem charge_reverse (l : List Entry) : charge l.reverse = charge l := by
  induction l with
  | nil => rfl
  | cons e l ih => simp [ih]; omega

theorem trimCount_spec (max : Nat) (l : List Entry) (r : Nat) :
    trimCount max l (charge l + r) =
      (l.drop (l.length - max), charge (l.drop (l.length - max)) + r) := by
  induction l with
  | nil => simp [trimCount]
  | cons e es ih =>
    rw [trimCount]
    split
    · next h =>
      have e1 : charge (e :: es) + r - e.mem = charge es + r := by simp; omega
      rw [e1, ih]
      have e2 : (e :: es).length - max = (es.length - max) + 1 := by simp at h ⊢; omega
      rw [e2, List.drop_succ_cons]
    · next h =>
      have e2 : (e :: es).length - max = 0 := by simp at h ⊢; omega
      rw [e2]; rfl

theorem trimMem_spec (max : Nat) (l : List Entry) (r : Nat) :
    ∃ k, trimMem max l (charge l + r) = (l.drop k, charge (l.drop k) + r) ∧
      (max = 0 ∨ charge (l.drop k) + r ≤ max ∨ l.drop k = []) ∧
      (∀ j, (max = 0 ∨ charge (l.drop j) + r ≤ max) → k ≤ j ∨ l.drop j = []) := by
  induction l with
  | nil => exact ⟨0, by simp [trimMem], by simp, by simp⟩
  | cons e es ih =>
    rw [trimMem]
    split
    · next h =>
      have e1 : charge (e :: es) + r - e.mem = charge es + r := by simp; omega
      obtain ⟨k, h1, h2, h3⟩ := ih
      refine ⟨k + 1, by rw [e1, h1]; rfl, by simpa using h2, ?_⟩
      intro j hj
      cases j with
      | zero => simp only [List.drop_zero] at hj; omega
      | succ j =>
        rw [List.drop_succ_cons] at hj ⊢
        rcases h3 j hj with h | h
        · left; omega
        · right; exact h
    · next h =>
      refine ⟨0, rfl, ?_, ?_⟩
      · simp only [List.drop_zero]
        by_cases hm : max = 0
        · exact Or.inl hm
        · right; left; omega
      · intro j _; left; omega

/-- The counter equals the charges of the stored entries. -/
def WF (s : Stack) : Prop := s.mem = charge s.undo + charge s.redo

theorem foldl_sub (l : List Entry) (r : Nat) : l.foldl (fun m e => m - e.mem) (r + charge l) = r := by
  induction l with
  | nil => simp
  | cons e es ih =>
    simp only [List.foldl_cons, charge_cons]
    rw [show r + (e.mem + charge es) - e.mem = r + charge es by omega, ih]

theorem clearRedo_eq {s : Stack} (h : WF s) :
    s.clearRedo = ⟨s.cfg, s.undo, [], charge s.undo⟩ := by
  unfold Stack.clearRedo
  rw [h, foldl_sub]

/-- Everything about a push. -/
theorem push_spec {s : Stack} (h : WF s) (e : Entry) :
    ∃ k, (s.push e).undo = (e :: s.undo).take k ∧ (s.push e).redo = [] ∧
      (s.push e).cfg = s.cfg ∧ (s.push e).mem = charge ((e :: s.undo).take k) ∧
      k ≤ s.cfg.maxEntries ∧
      (s.cfg.maxMemory = 0 ∨ (s.push e).mem ≤ s.cfg.maxMemory) ∧
      (∀ j, j ≤ s.cfg.maxEntries → j ≤ s.undo.length + 1 →
        (s.cfg.maxMemory = 0 ∨ charge ((e :: s.undo).take j) ≤ s.cfg.maxMemory) → j ≤ k) := by
  have hd : ∀ (l : List Entry) k, (l.reverse.drop k).reverse = l.take (l.length - k) := by
    intro l k
    rw [List.drop_reverse, List.reverse_reverse]
  have key : s.push e = Stack.enforce ⟨s.cfg, e :: s.undo, [], charge (e :: s.undo)⟩ := by
    unfold Stack.push
    rw [clearRedo_eq h]
    simp [Nat.add_comm]
  generalize hl : e :: s.undo = l at *
  rw [key]
  unfold Stack.enforce
  simp only
  have h0 : charge l = charge l.reverse + 0 := by simp
  rw [h0, trimCount_spec]
  simp only
  obtain ⟨k, h1, h2, h3⟩ := trimMem_spec s.cfg.maxMemory
    (l.reverse.drop (l.reverse.length - s.cfg.maxEntries)) 0
  rw [h1]
  simp only
  have hdd : (l.reverse.drop (l.reverse.length - s.cfg.maxEntries)).drop k =
      (l.take (l.length - (l.length - s.cfg.maxEntries + k))).reverse := by
    rw [List.drop_drop, ← hd, List.reverse_reverse]
    congr 1
    simp
  refine ⟨l.length - (l.length - s.cfg.maxEntries + k), ?_, trivial, trivial, ?_, by omega, ?_, ?_⟩
  · rw [hdd, List.reverse_reverse]
  · rw [hdd]; simp
  · rcases h2 with h2 | h2 | h2
    · exact Or.inl h2
    · exact Or.inr h2
    · right; rw [h2]; simp
  · intro j hj hjl hjm
    have hlen : l.length = s.undo.length + 1 := by rw [← hl]; simp
    have hspec := h3 (l.length - j - (l.length - s.cfg.maxEntries))
    have hdj : (l.reverse.drop (l.reverse.length - s.cfg.maxEntries)).drop
        (l.length - j - (l.length - s.cfg.maxEntries)) = (l.take j).reverse := by
      rw [List.drop_drop]
      have := hd l (l.length - j)
      rw [show l.length - (l.length - j) = j by omega] at this
      rw [← this, List.reverse_reverse]
      congr 1
      simp; omega
    rw [hdj] at hspec
    have := hspec (by simpa using hjm)
    rcases this with h | h
    · omega
    · have hnil : l.take j = [] := by simpa using h
      have : (l.take j).length = 0 := by rw [hnil]; rfl
      rw [List.length_take] at this
      omega

theorem push_wf {s : Stack} (h : WF s) (e : Entry) : WF (s.push e) := by
  obtain ⟨k, h1, h2, h3, h4, _⟩ := push_spec h e
  unfold WF
  rw [h1, h2, h4]; simp

/-- A push keeps the newest entries that fit. -/
theorem push_keeps {s : Stack} (h : WF s) (e : Entry) {E rest : List Entry}
    (hu : s.undo = E ++ rest) (hn : E.length + 1 ≤ s.cfg.maxEntries)
    (hm : s.cfg.maxMemory = 0 ∨ e.mem + charge E ≤ s.cfg.maxMemory) :
    ∃ rest', (s.push e).undo = e :: E ++ rest' := by
  obtain ⟨k, h1, _, _, _, _, _, h7⟩ := push_spec h e
  have ht : (e :: s.undo).take (E.length + 1) = e :: E := by
    rw [hu]; simp
  have hk := h7 (E.length + 1) hn (by rw [hu]; simp) (by rw [ht]; simpa using hm)
  refine ⟨rest.take (k - (E.length + 1)), ?_⟩
  rw [h1, hu, ← List.cons_append, List.take_append]
  congr 1
  exact List.take_of_length_le (by simp; omega)

/-! ## The document invariant -/

/-- Invariant of reachable documents. -/
structure Inv (s : Stack) : Prop where
  wf : WF s
  count : s.undo.length ≤ s.cfg.maxEntries
  memory : s.cfg.maxMemory = 0 ∨ s.mem ≤ s.cfg.maxMemory

theorem inv_new (cfg : Config) : Inv (Stack.new cfg) :=
  ⟨rfl, Nat.zero_le _, Or.inr (Nat.zero_le _)⟩

theorem inv_clear {s : Stack} : Inv s.clear :=
  ⟨rfl, Nat.zero_le _, Or.inr (Nat.zero_le _)⟩

theorem inv_push {s : Stack} (h : WF s) (e : Entry) : Inv (s.push e) := by
  obtain ⟨k, h1, h2, h3, h4, h5, h6, _⟩ := push_spec h e
  refine ⟨push_wf h e, ?_, ?_⟩
  · rw [h1, h3]; simp; omega
  · rw [h3]; exact h6

theorem inv_popUndo {s s' : Stack} {e : Entry} (h : Inv s) (hp : s.popUndo = some (e, s')) :
    Inv s' ∧ Inv (s'.pushRedo e) := by
  unfold Stack.popUndo at hp
  split at hp
  · simp at hp
  · next e' es hu =>
    simp only [Option.some.injEq, Prod.mk.injEq] at hp
    obtain ⟨rfl, rfl⟩ := hp
    obtain ⟨h1, h2, h3⟩ := h
    unfold WF at h1
    rw [hu] at h1 h2
    simp only [charge_cons, List.length_cons] at h1 h2
    refine ⟨⟨?_, ?_, ?_⟩, ⟨?_, ?_, ?_⟩⟩
    · simp only [WF]; omega
    · simp only; omega
    · simp only; omega
    · simp only [WF, Stack.pushRedo, charge_cons]; omega
    · simp only [Stack.pushRedo]; omega
    · simp only [Stack.pushRedo]; omega

theorem inv_popRedo {s s' : Stack} {e : Entry} (h : Inv s) (hp : s.popRedo = some (e, s')) :
    Inv s' := by
  unfold Stack.popRedo at hp
  split at hp
  · simp at hp
  · next e' es hu =>
    simp only [Option.some.injEq, Prod.mk.injEq] at hp
    obtain ⟨rfl, rfl⟩ := hp
    obtain ⟨h1, h2, h3⟩ := h
    unfold WF at h1
    rw [hu] at h1
    simp only [charge_cons] at h1
    refine ⟨?_, ?_, ?_⟩
    · simp only [WF]; omega
    · simp only; omega
    · simp only; omega

theorem inv_record {d : Doc} (h : Inv d.hist) (op : Op) (k : Nat) : Inv (d.record op k).hist :=
  inv_push h.wf _

theorem inv_edit {d : Doc} (h : Inv d.hist) (e : Edit) : Inv (e.run d).2.hist := by
  cases e with
  | insert pos t =>
    simp only [Edit.run, Doc.insert]
    split
    · exact inv_record (d := { d with text := _ }) h _ _
    · exact h
  | delete r =>
    simp only [Edit.run, Doc.delete]
    split
    · exact h
    · exact h
    · split
      · exact inv_record (d := { d with text := _ }) h _ _
      · exact h
  | replace r t =>
    simp only [Edit.run, Doc.replace]
    split
    · exact h
    · exact h
    · split
      · exact inv_record (d := { d with text := _ }) h _ _
      · exact h

theorem inv_call {d : Doc} (h : Inv d.hist) (c : Call) : Inv (c.run d).hist := by
  cases c with
  | edit e => exact inv_edit h e
  | execInsert pos t =>
    simp only [Call.run, Doc.execInsert]
    split
    · split
      · split
        · exact inv_record (d := { d with text := _ }) h _ _
        · exact h
        · exact h
      · split
        · exact inv_record (d := { d with text := _ }) h _ _
        · exact inv_record (d := { d with text := _ }) h _ _
        · exact h
    · exact h
  | execDelete r =>
    simp only [Call.run, Doc.execDelete]
    split
    · split
      · exact inv_record (d := { d with text := _ }) h _ _
      · exact h
      · exact h
    · exact h
  | undo =>
    simp only [Call.run, Doc.undo]
    split
    · exact h
    · next e s hp =>
      split
      · exact (inv_popUndo h hp).2
      · exact (inv_popUndo h hp).1
  | redo =>
    simp only [Call.run, Doc.redo]
    split
    · exact h
    · next e s hp =>
      split
      · exact inv_push (inv_popRedo h hp).wf _
      · exact inv_popRedo h hp
  | clearHistory => exact inv_clear
  | setConfig cfg => exact inv_new cfg

theorem inv_reachable {d : Doc} (h : Reachable d) : Inv d.hist := by
  induction h with
  | init text cfg => exact inv_new cfg
  | step d c _ ih => exact inv_call ih c

/-! ## Undo chains -/

/-- Undoing the listed operations, first to last, leads from `cur` to `origin`. -/
def Chain : List Entry → Str → Str → Prop
  | [], cur, origin => cur = origin
  | e :: es, cur, origin => ∃ mid, undoText e.op cur = (.ok (), mid) ∧ Chain es mid origin

theorem undo_of_splice {s s' : Str} {e : Edit} (h : Splice s e s') (hs : e.SameLength) (d : Doc)
    (hd : d.text = s) : ∃ op desc, (e.run d) = (.ok (), Doc.record { d with text := s' } op desc) ∧
      undoText op s' = (.ok (), s) ∧ redoText op s = (.ok (), s') ∧
      op.memory d.hist.cfg + desc = e.cost d.hist.cfg.opSize := by
  cases h with
  | insert a b t =>
    refine ⟨.insert (byteLen a) t, insertDesc, ?_, ?_, ?_, rfl⟩
    · simp only [Edit.run, Doc.insert, hd, insertRaw_at]
    · simp only [undoText]
      rw [new_of_le (by omega), deleteRaw_at]
    · simp only [redoText, insertRaw_at]
  | delete a m b =>
    refine ⟨.delete ⟨byteLen a, byteLen a + byteLen m⟩ m, deleteDesc, ?_, ?_, ?_, ?_⟩
    · simp only [Edit.run, Doc.delete, hd, textRange_at, deleteRaw_at]
    · simp only [undoText, insertRaw_at]
    · simp only [redoText, deleteRaw_at]
    · simp only [Op.memory, Edit.cost, Range.len, deleteDesc]; omega
  | replace a m b n =>
    refine ⟨.replace ⟨byteLen a, byteLen a + byteLen m⟩ m n, replaceDesc, ?_, ?_, ?_, ?_⟩
    · simp only [Edit.run, Doc.replace, hd, textRange_at, replaceRaw_at]
    · simp only [Edit.SameLength, Range.len] at hs
      have : byteLen m = byteLen n := by omega
      simp only [undoText, this, replaceRaw_at]
    · simp only [redoText, replaceRaw_at]
    · simp only [Op.memory, Edit.cost, Range.len, replaceDesc]; omega

theorem record_cfg {d : Doc} (h : WF d.hist) (op : Op) (k : Nat) :
    (d.record op k).hist.cfg = d.hist.cfg := by
  obtain ⟨_, _, _, h3, _⟩ := push_spec h ⟨op, op.memory d.hist.cfg + k⟩
  exact h3

theorem runAll_append (d : Doc) (es fs : List Edit) : runAll d (es ++ fs) = runAll (runAll d es) fs := by
  induction es generalizing d with
  | nil => rfl
  | cons e es ih => exact ih _

theorem splices_chain {d : Doc} (hinv : Inv d.hist) {es : List Edit} {s : Str}
    (h : Splices d.text es s) (hs : ∀ e ∈ es, e.SameLength)
    (hn : es.length ≤ d.hist.cfg.maxEntries)
    (hm : d.hist.cfg.maxMemory = 0 ∨
      (es.map (Edit.cost d.hist.cfg.opSize)).sum ≤ d.hist.cfg.maxMemory) :
    (runAll d es).text = s ∧ Inv (runAll d es).hist ∧ (runAll d es).hist.cfg = d.hist.cfg ∧
    ∃ E rest, (runAll d es).hist.undo = E ++ rest ∧ E.length = es.length ∧
      charge E = (es.map (Edit.cost d.hist.cfg.opSize)).sum ∧ Chain E s d.text := by
  induction h with
  | nil => exact ⟨rfl, hinv, rfl, [], d.hist.undo, rfl, rfl, rfl, rfl⟩
  | @snoc s' s'' es e _ hsp ih =>
    simp only [List.length_append, List.length_cons, List.length_nil, List.map_append, List.map_cons,
      List.map_nil, List.sum_append, List.sum_cons, List.sum_nil] at hn hm
    obtain ⟨h1, h2, h3, E, rest, h4, h5, h6, h7⟩ := ih (fun x hx => hs x (by simp [hx])) (by omega)
      (by omega)
    obtain ⟨op, desc, hrun, hundo, _, hcost⟩ := undo_of_splice hsp (hs e (by simp)) _ h1
    rw [runAll_append]
    simp only [runAll, hrun]
    rw [h3] at hcost
    obtain ⟨rest', hk⟩ := push_keeps h2.wf ⟨op, op.memory (runAll d es).hist.cfg + desc⟩ h4
      (by rw [h3]; omega) (by rw [h3]; simp only; omega)
    refine ⟨rfl, inv_record (d := { runAll d es with text := _ }) h2 _ _, ?_, ⟨op, _⟩ :: E, rest', hk,
      by simp [h5], ?_, s', hundo, h7⟩
    · exact (record_cfg (d := ⟨s'', (runAll d es).hist⟩) h2.wf op desc).trans h3
    · simp only [charge_cons, h6, List.map_append, List.sum_append, List.map_cons, List.map_nil,
        List.sum_cons, List.sum_nil]
      rw [h3]; omega

theorem undoTimes_chain (E : List Entry) : ∀ (d : Doc) (rest : List Entry) (origin : Str),
    d.hist.undo = E ++ rest → Chain E d.text origin →
    ∃ d', undoTimes E.length d = some d' ∧ d'.text = origin := by
  induction E with
  | nil => intro d rest origin _ hc; exact ⟨d, rfl, hc⟩
  | cons e es ih =>
    intro d rest origin hu hc
    obtain ⟨mid, hm, hc⟩ := hc
    have hp : d.hist.popUndo = some (e, { d.hist with undo := es ++ rest, mem := d.hist.mem - e.mem }) := by
      unfold Stack.popUndo
      rw [hu]; rfl
    simp only [List.length_cons, undoTimes, Doc.undo, hp, hm]
    exact ih _ rest origin rfl hc

end Verif.Doc
