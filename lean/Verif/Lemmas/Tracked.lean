import Verif.Model.Tracked
import Verif.Spec.Tracked
import Verif.Lemmas.Doc
namespace Verif.Tracked
open Verif Verif.Doc Verif.Pos Verif.Spec.Tracked

theorem bytes_eq (s : Str) : bytes s = byteLen s := by
  induction s with
  | nil => rfl
  | cons c s ih => rw [byteLen_cons, ← ih]; simp [bytes]

/-! ## The lists of cursors -/

theorem trimCount_suffix (max : Nat) : ∀ (l : List Entry) (m : Nat), (trimCount max l m).1 <:+ l
  | [], m => by simp [trimCount]
  | e :: es, m => by
    rw [trimCount]
    split
    · exact (trimCount_suffix max es _).trans (List.suffix_cons _ _)
    · exact List.suffix_refl _

theorem trimMem_suffix (max : Nat) : ∀ (l : List Entry) (m : Nat), (trimMem max l m).1 <:+ l
  | [], m => by simp [trimMem]
  | e :: es, m => by
    rw [trimMem]
    split
    · exact (trimMem_suffix max es _).trans (List.suffix_cons _ _)
    · exact List.suffix_refl _

theorem push_prefix (s : Stack) (e : Entry) : (s.push e).undo <+: e :: s.undo ∧ (s.push e).redo = [] := by
  unfold Stack.push Stack.enforce
  dsimp only
  refine ⟨?_, rfl⟩
  rw [show e :: s.clearRedo.undo = e :: s.undo from rfl]
  have h := (trimMem_suffix s.cfg.maxMemory (trimCount s.cfg.maxEntries (e :: s.undo).reverse (s.clearRedo.mem + e.mem)).1
    (trimCount s.cfg.maxEntries (e :: s.undo).reverse (s.clearRedo.mem + e.mem)).2).trans (trimCount_suffix _ _ _)
  rw [← List.reverse_prefix, List.reverse_reverse] at h
  exact h

/-- Every entry of the history has its cursors. -/
def Paired (d : TDoc) : Prop := d.undoC.length = d.hist.undo.length ∧ d.redoC.length = d.hist.redo.length

/-- Only the text and the mark of changes differ. -/
def Beside (d d' : TDoc) : Prop :=
  d'.hist = d.hist ∧ d'.undoC = d.undoC ∧ d'.redoC = d.redoC ∧ d'.cursor = d.cursor ∧ d'.path = d.path

theorem Beside.trans {a b c : TDoc} (h : Beside a b) (k : Beside b c) : Beside a c :=
  ⟨k.1.trans h.1, k.2.1.trans h.2.1, k.2.2.1.trans h.2.2.1, k.2.2.2.1.trans h.2.2.2.1, k.2.2.2.2.trans h.2.2.2.2⟩

theorem insertRaw_beside (d : TDoc) (pos : Nat) (t : Str) : Beside d (insertRaw d pos t).2 := by
  unfold insertRaw
  split <;> exact ⟨rfl, rfl, rfl, rfl, rfl⟩

theorem deleteRaw_beside (d : TDoc) (r : Range) : Beside d (deleteRaw d r).2 := by
  unfold deleteRaw
  split <;> exact ⟨rfl, rfl, rfl, rfl, rfl⟩

theorem replaceRaw_beside (d : TDoc) (r : Range) (t : Str) : Beside d (replaceRaw d r t).2 := by
  unfold replaceRaw
  have h := deleteRaw_beside d r
  split
  · next d1 e => rw [e] at h; exact h.trans (insertRaw_beside d1 _ _)
  · next e => rw [e] at h; exact h

theorem undoRaw_beside (d : TDoc) (op : Doc.Op) : Beside d (undoRaw d op).2 := by
  cases op with
  | insert pos t => exact deleteRaw_beside _ _
  | delete r x => exact insertRaw_beside _ _ _
  | replace r o n => exact replaceRaw_beside _ _ _

theorem redoRaw_beside (d : TDoc) (op : Doc.Op) : Beside d (redoRaw d op).2 := by
  cases op with
  | insert pos t => exact insertRaw_beside _ _ _
  | delete r x => exact deleteRaw_beside _ _
  | replace r o n => exact replaceRaw_beside _ _ _

/-! ## The mark of changes -/

/-- The text is marked as changed, or neither it nor the mark changed. -/
def Marked (d d' : TDoc) : Prop := d'.modified = true ∨ (d'.text = d.text ∧ d'.modified = d.modified)

theorem insertRaw_fail {s : Str} {pos : Nat} {t : Str} (h : ∀ u, (Doc.insertRaw s pos t).1 ≠ .ok u) : (Doc.insertRaw s pos t).2 = s := by
  unfold Doc.insertRaw at h ⊢
  split
  · rfl
  · next g => rw [if_neg g] at h; exact absurd rfl (h ())

theorem deleteRaw_fail {s : Str} {r : Range} (h : ∀ u, (Doc.deleteRaw s r).1 ≠ .ok u) : (Doc.deleteRaw s r).2 = s := by
  unfold Doc.deleteRaw at h ⊢
  split
  · rfl
  · next g =>
    rw [if_neg g] at h
    dsimp only at h ⊢
    split
    · next k => rw [if_pos k] at h; exact absurd rfl (h ())
    · rfl

theorem insertRaw_marked (d : TDoc) (pos : Nat) (t : Str) : Marked d (insertRaw d pos t).2 := by
  unfold insertRaw
  split
  · exact Or.inl rfl
  · next _ o s e hn =>
    right
    have := insertRaw_fail (s := d.text) (pos := pos) (t := t) (by rw [hn]; rintro u rfl; exact e u rfl)
    rw [hn] at this
    exact ⟨this, rfl⟩

theorem deleteRaw_marked (d : TDoc) (r : Range) : Marked d (deleteRaw d r).2 := by
  unfold deleteRaw
  split
  · exact Or.inl rfl
  · next _ o s e hn =>
    right
    have := deleteRaw_fail (s := d.text) (r := r) (by rw [hn]; rintro u rfl; exact e u rfl)
    rw [hn] at this
    exact ⟨this, rfl⟩

theorem Marked.trans {a b c : TDoc} (h : Marked a b) (k : Marked b c) : Marked a c := by
  rcases k with k | ⟨k1, k2⟩
  · exact Or.inl k
  · rcases h with h | ⟨h1, h2⟩
    · exact Or.inl (k2.trans h)
    · exact Or.inr ⟨k1.trans h1, k2.trans h2⟩

theorem replaceRaw_marked (d : TDoc) (r : Range) (t : Str) : Marked d (replaceRaw d r t).2 := by
  unfold replaceRaw
  have h := deleteRaw_marked d r
  split
  · next d1 e => rw [e] at h; exact h.trans (insertRaw_marked d1 _ _)
  · next e => rw [e] at h; exact h

theorem undoRaw_marked (d : TDoc) (op : Doc.Op) : Marked d (undoRaw d op).2 := by
  cases op with
  | insert pos t => exact deleteRaw_marked _ _
  | delete r x => exact insertRaw_marked _ _ _
  | replace r o n => exact replaceRaw_marked _ _ _

theorem redoRaw_marked (d : TDoc) (op : Doc.Op) : Marked d (redoRaw d op).2 := by
  cases op with
  | insert pos t => exact insertRaw_marked _ _ _
  | delete r x => exact deleteRaw_marked _ _
  | replace r o n => exact replaceRaw_marked _ _ _

theorem insert_marked (d : TDoc) (pos : Nat) (t : Str) : Marked d (insert d pos t).2 := by
  have h := insertRaw_marked d pos t
  unfold insert
  split <;> next e => rw [e] at h; exact h

theorem delete_marked (d : TDoc) (r : Range) : Marked d (delete d r).2 := by
  have h := deleteRaw_marked d r
  unfold delete
  split
  · exact Or.inr ⟨rfl, rfl⟩
  · exact Or.inr ⟨rfl, rfl⟩
  · split <;> next e => rw [e] at h; exact h

theorem replace_marked (d : TDoc) (r : Range) (t : Str) : Marked d (replace d r t).2 := by
  have h := replaceRaw_marked d r t
  unfold replace
  split
  · exact Or.inr ⟨rfl, rfl⟩
  · exact Or.inr ⟨rfl, rfl⟩
  · split <;> next e => rw [e] at h; exact h

theorem run_marked (d : TDoc) (c : TextCmd) : Marked d (c.run d).2 := by
  cases c with
  | insert pos t => exact insertRaw_marked _ _ _
  | delete r => exact deleteRaw_marked _ _
  | replace r t => exact replaceRaw_marked _ _ _

theorem exec_marked (d : TDoc) (c : TextCmd) : Marked d (exec d c).2 := by
  have h := run_marked d c
  unfold exec
  split
  · next e => rw [e] at h; split <;> exact h
  · next e => rw [e] at h; exact h

theorem undo_marked (d : TDoc) : Marked d (undo d).2 := by
  unfold undo
  split
  · next e hh c cs _ _ =>
    have h : Marked d (undoRaw { d with hist := hh, undoC := cs } e.op).2 := undoRaw_marked { d with hist := hh, undoC := cs } e.op
    split <;> next g => rw [g] at h; exact h
  · exact Or.inr ⟨rfl, rfl⟩

theorem redo_marked (d : TDoc) : Marked d (redo d).2 := by
  unfold redo
  split
  · next e hh c cs _ _ =>
    have h : Marked d (redoRaw { d with hist := hh, redoC := cs } e.op).2 := redoRaw_marked { d with hist := hh, redoC := cs } e.op
    split <;> next g => rw [g] at h; exact h
  · exact Or.inr ⟨rfl, rfl⟩

/-! ## The path -/

theorem insert_path (d : TDoc) (pos : Nat) (t : Str) : (insert d pos t).2.path = d.path := by
  have h := (insertRaw_beside d pos t).2.2.2.2
  unfold insert
  split <;> next e => rw [e] at h; exact h

theorem delete_path (d : TDoc) (r : Range) : (delete d r).2.path = d.path := by
  have h := (deleteRaw_beside d r).2.2.2.2
  unfold delete
  split
  · rfl
  · rfl
  · split <;> next e => rw [e] at h; exact h

theorem replace_path (d : TDoc) (r : Range) (t : Str) : (replace d r t).2.path = d.path := by
  have h := (replaceRaw_beside d r t).2.2.2.2
  unfold replace
  split
  · rfl
  · rfl
  · split <;> next e => rw [e] at h; exact h

theorem run_beside (d : TDoc) (c : TextCmd) : Beside d (c.run d).2 := by
  cases c with
  | insert pos t => exact insertRaw_beside _ _ _
  | delete r => exact deleteRaw_beside _ _
  | replace r t => exact replaceRaw_beside _ _ _

theorem exec_path (d : TDoc) (c : TextCmd) : (exec d c).2.path = d.path := by
  have h := (run_beside d c).2.2.2.2
  unfold exec
  split
  · next e => rw [e] at h; split <;> exact h
  · next e => rw [e] at h; exact h

theorem undo_path (d : TDoc) : (undo d).2.path = d.path := by
  unfold undo
  split
  · next e hh c cs _ _ =>
    have h := (undoRaw_beside { d with hist := hh, undoC := cs } e.op).2.2.2.2
    split <;> next g => rw [g] at h; exact h
  · rfl

theorem redo_path (d : TDoc) : (redo d).2.path = d.path := by
  unfold redo
  split
  · next e hh c cs _ _ =>
    have h := (redoRaw_beside { d with hist := hh, redoC := cs } e.op).2.2.2.2
    split <;> next g => rw [g] at h; exact h
  · rfl

end Verif.Tracked
