import Verif.Lemmas.Sync
import Verif.Lemmas.Map
/-!
# C112: sharing a document between threads

For every number of threads, every list of operations for each, every document type, and every schedule.
-/
namespace Verif.Props
open Verif Verif.Sync Verif.Spec.Sync

/-- **One after another.** However the threads' turns fall, the results of the finished operations and the document are those of carrying
out the operations one after another, each undisturbed: nobody sees a half-made change.  The order is that of the log, which contains every
thread's operations in the thread's own order, and each of them at a moment between its beginning and its end: the log only grows at its end,
by steps of the thread itself. -/
theorem C112_serial {D R : Type} (d0 : D) (ps : Nat → List (Op D R)) (l l' : List Nat) :
    (∃ q, Serial ⟨d0, false⟩ (sched (init d0 ps) l).log q ∧
      ((sched (init d0 ps) l).writer = none → (sched (init d0 ps) l).doc = q.doc)) ∧
    (∀ t, ((sched (init d0 ps) l).log.filter (fun e => e.1 == t)).map (fun e => e.2.1) ++ ((sched (init d0 ps) l).threads t).todo = ps t) ∧
    (sched (init d0 ps) l).log <+: (sched (init d0 ps) (l ++ l')).log ∧
    ∀ t s', step (sched (init d0 ps) l) t = some s' → s'.log = (sched (init d0 ps) l).log ∨
      ∃ op r, s'.log = (sched (init d0 ps) l).log ++ [(t, op, r)] := by
  obtain ⟨q, h⟩ := inv_sched (inv_init d0 ps) l
  refine ⟨⟨q, h.serial, h.doc⟩, h.order, ?_, fun t s' hs => step_log hs⟩
  rw [sched_append]
  exact sched_log _ _

/-- Adding in two steps, as a command that reads, computes and writes. -/
def addTwice (n : Nat) : Prog Nat Nat := .step (· + n) fun _ => .step (· + n) fun d => .ret d

/-- Two threads add, a third one looks twice; the turns are interleaved as far as the locks permit. -/
def threeThreads : Nat → List (Op Nat Nat)
  | 0 => [.exec (addTwice 1)]
  | 1 => [.write (addTwice 10)]
  | 2 => [.read (.look fun a => .look fun b => .ret (100 * a + b))]
  | _ => []

example : ((sched (init 0 threeThreads) [0, 0, 1, 0, 2, 1, 0, 2, 0, 2, 1, 2, 0, 2, 1, 2, 1, 1, 1, 1]).log.map fun e => (e.1, e.2.2)) =
    [(0, .ok 1), (2, .ok 202), (1, .ok 12)] := by decide
example : (sched (init 0 threeThreads) [0, 0, 1, 0, 2, 1, 0, 2, 0, 2, 1, 2, 0, 2, 1, 2, 1, 1, 1, 1]).doc = 22 := by decide

/-- **Alone.** While one thread has write access, no other thread has write or read access. -/
theorem C112_alone {D R : Type} (d0 : D) (ps : Nat → List (Op D R)) (l : List Nat) (t u : Nat) (c : Bool) (p : Prog D R) (htu : u ≠ t)
    (ht : ((sched (init d0 ps) l).threads t).act = .writing c p) :
    (∀ c' p', ((sched (init d0 ps) l).threads u).act ≠ .writing c' p') ∧ ∀ p', ((sched (init d0 ps) l).threads u).act ≠ .reading p' := by
  obtain ⟨q, h⟩ := inv_sched (inv_init d0 ps) l
  generalize sched (init d0 ps) l = s at *
  have hw : s.writer = some t := by
    have hf := h.fit t
    generalize s.threads t = th at *
    cases hf <;> first | assumption | exact nomatch ht
  have hu : s.writer ≠ some u := ne_some hw htu
  have hf := h.fit u
  generalize s.threads u = th at *
  cases hf with
  | idle => exact ⟨fun _ _ e => (nomatch e), fun _ e => (nomatch e)⟩
  | locked => exact ⟨fun _ _ e => (nomatch e), fun _ e => (nomatch e)⟩
  | exec _ _ _ _ h2 => exact absurd h2 hu
  | write _ _ _ _ h2 => exact absurd h2 hu
  | leaving => exact ⟨fun _ _ e => (nomatch e), fun _ e => (nomatch e)⟩
  | reading _ _ _ _ h2 => rw [hw] at h2; exact nomatch h2

example : ((sched (init 0 threeThreads) [0, 0, 0, 1, 2]).threads 0).act = .writing true (.step (· + 1) fun d => .ret d) := rfl

/-- **Nobody waits for ever.** As long as a thread is not done, some thread can go on: the two locks never block each other. -/
theorem C112_progress {D R : Type} (d0 : D) (ps : Nat → List (Op D R)) (l : List Nat) (t : Nat)
    (ht : ((sched (init d0 ps) l).threads t).todo ≠ []) : ∃ u, (step (sched (init d0 ps) l) u).isSome = true := by
  obtain ⟨q, h⟩ := inv_sched (inv_init d0 ps) l
  exact progress h t (.inl ht)

example : ((sched (init 0 threeThreads) [0, 0, 0, 1, 2]).threads 1).todo ≠ [] := by decide

/-- **An end.** With finitely many threads there is no infinite execution; and every execution can be continued until all operations have
finished, all locks are free and the document is the one left by the operations in the order of the log. -/
theorem C112_end {D R : Type} (d0 : D) (ps : Nat → List (Op D R)) (n : Nat) (hn : ∀ t, n ≤ t → ps t = []) :
    (∀ (f : Nat → Nat) (σ : Nat → St D R), σ 0 = init d0 ps → ¬ ∀ i, step (σ i) (f i) = some (σ (i + 1))) ∧
    (∀ l, ∃ l' q, (∀ t, ((sched (init d0 ps) (l ++ l')).log.filter (fun e => e.1 == t)).map (fun e => e.2.1) = ps t) ∧
      Serial ⟨d0, false⟩ (sched (init d0 ps) (l ++ l')).log q ∧ (sched (init d0 ps) (l ++ l')).doc = q.doc ∧
      (sched (init d0 ps) (l ++ l')).cmd = none ∧ (sched (init d0 ps) (l ++ l')).writer = none ∧ (sched (init d0 ps) (l ++ l')).readers = []) := by
  have stay : ∀ (s s' : St D R) (t : Nat), (∀ u, n ≤ u → Out (s.threads u)) → step s t = some s' →
      t < n ∧ ∀ u, n ≤ u → Out (s'.threads u) := by
    intro s s' t hs h
    have htn : t < n := Nat.lt_of_not_le (fun e => by rw [step_out (hs t e)] at h; exact nomatch h)
    exact ⟨htn, fun u hu => by rw [(step_move h).2 u (by omega)]; exact hs u hu⟩
  constructor
  · intro f σ h0 hall
    have hout : ∀ i u, n ≤ u → Out ((σ i).threads u) := by
      intro i
      induction i with
      | zero => intro u hu; rw [h0]; exact ⟨hn u hu, rfl⟩
      | succ i ih => exact (stay _ _ _ ih (hall i)).2
    have key : ∀ g : Nat → Thread D R, Acc (Many n) g → ∀ i, (σ i).threads = g → False := by
      intro g hg
      induction hg with
      | intro g _ ih =>
        intro i hi
        obtain ⟨hm, ho⟩ := step_move (hall i)
        exact ih (σ (i + 1)).threads ⟨f i, (stay _ _ _ (hout i) (hall i)).1, by rw [← hi]; exact hm, by rw [← hi]; exact ho⟩ (i + 1) rfl
    exact key _ (acc_many n _) 0 rfl
  · intro l
    have hout : ∀ (l : List Nat) (s : St D R), (∀ u, n ≤ u → Out (s.threads u)) → ∀ u, n ≤ u → Out ((sched s l).threads u) := by
      intro l
      induction l with
      | nil => exact fun s h => h
      | cons t l ih =>
        intro s h
        unfold sched
        cases hs : step s t with
        | none => exact ih _ h
        | some s' => exact ih _ (stay _ _ _ h hs).2
    obtain ⟨l', hl'⟩ := to_end n (hout l (init d0 ps) (fun u hu => ⟨hn u hu, rfl⟩))
    rw [← sched_append] at hl'
    obtain ⟨q, h⟩ := inv_sched (inv_init d0 ps) (l ++ l')
    have ha := all_out h hl'
    refine ⟨l', q, ?_⟩
    generalize sched (init d0 ps) (l ++ l') = s at *
    have free : ∀ t, s.cmd ≠ some t ∧ s.writer ≠ some t ∧ t ∉ s.readers := by
      intro t
      have hf := h.fit t
      have := (ha t).2
      generalize s.threads t = th at hf this
      cases hf <;> first | exact ⟨by assumption, by assumption, by assumption⟩ | exact nomatch this
    have hw : s.writer = none := Option.eq_none_iff_forall_ne_some.2 fun t => (free t).2.1
    refine ⟨fun t => ?_, h.serial, h.doc hw, Option.eq_none_iff_forall_ne_some.2 fun t => (free t).1, hw,
      List.eq_nil_iff_forall_not_mem.2 fun t => (free t).2.2⟩
    have := h.order t
    rwa [(ha t).1, List.append_nil] at this

example : ∀ t, 3 ≤ t → threeThreads t = [] := by
  intro t ht
  match t, ht with
  | t + 3, _ => rfl

/-- **After a panic.** When an operation with write access panics, every operation that ends later is refused, and the document stays as the
panic left it.  Nothing is refused otherwise. -/
theorem C112_panic {D R : Type} (d0 : D) (ps : Nat → List (Op D R)) (l : List Nat) :
    (∀ a b t op, (sched (init d0 ps) l).log = a ++ (t, op, .panic) :: b → (∀ p, op ≠ .read p) →
      (∀ e ∈ b, e.2.2 = .err) ∧
      ∃ q, Serial ⟨d0, false⟩ (a ++ [(t, op, .panic)]) q ∧ ((sched (init d0 ps) l).writer = none → (sched (init d0 ps) l).doc = q.doc)) ∧
    ((∀ e ∈ (sched (init d0 ps) l).log, ∀ p : Prog D R, e.2.2 = .panic → e.2.1 ≠ .exec p ∧ e.2.1 ≠ .write p) →
      ∀ e ∈ (sched (init d0 ps) l).log, e.2.2 ≠ .err) := by
  obtain ⟨q, h⟩ := inv_sched (inv_init d0 ps) l
  generalize sched (init d0 ps) l = s at *
  constructor
  · intro a b t op hl hop
    have hser := h.serial
    rw [hl, show a ++ (t, op, Res.panic) :: b = (a ++ [(t, op, .panic)]) ++ b by simp] at hser
    obtain ⟨m, h1, h2⟩ := serial_split hser
    have hm : m.broken = true := by
      generalize hL : a ++ [(t, op, Res.panic)] = L at h1
      cases h1 with
      | nil => simp at hL
      | snoc s' _ l2 t' op' r' _ ho =>
        obtain ⟨_, e2⟩ := List.append_inj' hL rfl
        obtain ⟨rfl, rfl, rfl⟩ : t = t' ∧ op = op' ∧ Res.panic = r' := by simpa using e2
        cases ho with
        | execPanic => rfl
        | writePanic => rfl
        | read d p => exact absurd rfl (hop p)
    obtain ⟨rfl, hb⟩ := serial_broken h2 hm
    exact ⟨hb, q, h1, h.doc⟩
  · intro hno
    have hser := h.serial
    generalize s.log = log at hser hno
    have key : ∀ (a : Sole D) (log : List (Nat × Op D R × Res R)) (b : Sole D), Serial a log b → a.broken = false →
        (∀ e ∈ log, ∀ p : Prog D R, e.2.2 = .panic → e.2.1 ≠ .exec p ∧ e.2.1 ≠ .write p) →
        b.broken = false ∧ ∀ e ∈ log, e.2.2 ≠ .err := by
      intro a log b hs ha
      induction hs with
      | nil => exact fun _ => ⟨ha, fun e he => nomatch he⟩
      | snoc s' s'' l t op r h ho ih =>
        intro hno
        obtain ⟨hb, he⟩ := ih (fun e he => hno e (List.mem_append_left _ he))
        have hlast := hno (t, op, r) (by simp)
        have fin : ∀ b : Sole D, b.broken = false → r ≠ .err → b.broken = false ∧ ∀ e ∈ l ++ [(t, op, r)], e.2.2 ≠ .err := by
          intro b hb hr
          refine ⟨hb, fun e he' => ?_⟩
          rcases List.mem_append.1 he' with he' | he'
          · exact he e he'
          · rw [List.mem_singleton.1 he']; exact hr
        cases ho with
        | refused => exact nomatch hb
        | exec => exact fin _ rfl (fun e => nomatch e)
        | execPanic _ _ p => exact absurd rfl (hlast p rfl).1
        | write => exact fin _ rfl (fun e => nomatch e)
        | writePanic _ _ p => exact absurd rfl (hlast p rfl).2
        | read d p r h =>
          refine fin _ rfl ?_
          rw [← h]
          clear h hlast fin hno
          induction p with
          | ret r => exact fun e => nomatch e
          | panic => exact fun e => nomatch e
          | look n ih => exact ih d
    exact (key _ _ _ hser rfl hno).2

/-- A command that panics half-way, and two operations after it. -/
def withPanic : Nat → List (Op Nat Nat)
  | 0 => [.exec (.step (· + 1) fun _ => .panic), .read (.look fun d => .ret d)]
  | 1 => [.exec (addTwice 10)]
  | _ => []

example : ((sched (init 0 withPanic) [0, 0, 0, 1, 0, 0, 0, 1]).log.map fun e => (e.1, e.2.2)) = [(0, .panic), (0, .err), (1, .err)] := by decide
example : (sched (init 0 withPanic) [0, 0, 0, 1, 0, 0, 0, 1]).doc = 1 := by decide

/-- **Not undone.** A command carried out through a shared document changes the text but is not recorded: it cannot be undone, and undoing
afterwards reverts an earlier edit at a place that has moved. -/
theorem C112_undo_violated :
    (∃ (d : Doc.Doc) (pos : Nat) (t : Str), (execInsert d pos t).1 = .ok () ∧ (execInsert d pos t).2.text ≠ d.text ∧
      (execInsert d pos t).2.undo.1 = .err) ∧
    ∃ (d : Doc.Doc) (pos : Nat) (t : Str), (execInsert d pos t).1 = .ok () ∧ (execInsert d pos t).2.undo.1 = .ok () ∧
      (execInsert d pos t).2.undo.2.text ≠ d.text ∧ (execInsert d pos t).2.undo.2.text = "Ybcab".toList ∧
      d.undo.2.text = "c".toList ∧ t = "YYab".toList := by
  refine ⟨⟨⟨"abc".toList, Doc.Stack.new ⟨50, 1000, 8⟩⟩, 1, "x".toList, by decide, by decide, by decide⟩, ?_⟩
  exact ⟨(Doc.Doc.insert ⟨"c".toList, Doc.Stack.new ⟨50, 1000, 8⟩⟩ 1 "ab".toList).2, 0, "YYab".toList,
    by decide, by decide, by decide, by decide, by decide, by decide⟩

/-- **The pool.** A document put into the pool is found under its id until it is removed or another one with the same id is put in; others
are not affected; documents created at different times have different ids.
Missing: documents created at one reading of the clock, which share an id (`C112_pool_violated`). -/
theorem C112_pool_partial {V : Type} (pool : Map Str V) (id id' : Str) (doc : V) (a b : Nat) :
    poolGet (poolAdd pool id doc).2 (poolAdd pool id doc).1 = some doc ∧
    poolGet (poolRemove pool id) id = none ∧
    (id' ≠ id → poolGet (poolAdd pool id doc).2 id' = poolGet pool id' ∧ poolGet (poolRemove pool id) id' = poolGet pool id') ∧
    (newId a = newId b ↔ a = b) :=
  ⟨Map.get_insert_self _ _ _, Map.get_erase_self _ _, fun h => ⟨Map.get_insert_ne h, Map.get_erase_ne h⟩, newId_inj, fun h => h ▸ rfl⟩

example : poolGet (poolAdd (poolAdd [] "doc_1".toList 10).2 "doc_2".toList 20).2 "doc_1".toList = some 10 := by decide

/-- Two documents created at the same reading of the clock have the same id: the second one put into the pool replaces the first. -/
theorem C112_pool_violated : ∃ (now : Nat) (pool : Map Str Nat) (x y : Nat), x ≠ y ∧
    let first := poolAdd pool (newId now) x
    let second := poolAdd first.2 (newId now) y
    poolGet second.2 first.1 = some y ∧ (poolList second.2).length = 1 :=
  ⟨1731801600000000000, [], 1, 2, by decide, by decide +kernel, by decide +kernel⟩

end Verif.Props
