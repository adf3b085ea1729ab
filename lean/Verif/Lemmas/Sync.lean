import Verif.Spec.Sync
import Verif.Lemmas.Str
/-! Lemmas for the properties of shared documents: what holds between any two steps of any schedule. -/
namespace Verif.Sync
open Verif Verif.Spec.Sync

variable {D R : Type}

/-- How what one thread is at fits the locks, the document and the operations finished so far. -/
inductive Fit (s : St D R) (q : Sole D) (t : Nat) : Thread D R → Prop
  | idle (todo : List (Op D R)) (hc : s.cmd ≠ some t) (hw : s.writer ≠ some t) (hr : t ∉ s.readers) : Fit s q t ⟨todo, .idle⟩
  | locked (p : Prog D R) (rest : List (Op D R)) (hc : s.cmd = some t) (hw : s.writer ≠ some t) (hr : t ∉ s.readers) :
      Fit s q t ⟨.exec p :: rest, .locked p⟩
  | exec (p p0 : Prog D R) (rest : List (Op D R)) (hc : s.cmd = some t) (hw : s.writer = some t) (hr : s.readers = [])
      (hb : s.bad = false) (h : p0.run q.doc = p.run s.doc) : Fit s q t ⟨.exec p0 :: rest, .writing true p⟩
  | write (p p0 : Prog D R) (rest : List (Op D R)) (hc : s.cmd ≠ some t) (hw : s.writer = some t) (hr : s.readers = [])
      (hb : s.bad = false) (h : p0.run q.doc = p.run s.doc) : Fit s q t ⟨.write p0 :: rest, .writing false p⟩
  | leaving (todo : List (Op D R)) (b : Bool) (hc : s.cmd = some t) (hw : s.writer ≠ some t) (hr : t ∉ s.readers)
      (hb : b = true → s.bad = true) : Fit s q t ⟨todo, .leaving b⟩
  | reading (p p0 : Look D R) (rest : List (Op D R)) (hc : s.cmd ≠ some t) (hw : s.writer = none) (hr : t ∈ s.readers)
      (hb : s.bad = false) (h : p0.run s.doc = p.run s.doc) : Fit s q t ⟨.read p0 :: rest, .reading p⟩

/-- What holds between any two steps. -/
structure Inv (d0 : D) (ps : Nat → List (Op D R)) (s : St D R) (q : Sole D) : Prop where
  serial : Serial ⟨d0, false⟩ s.log q
  bad : s.bad = q.broken
  cmdBad : s.cmdBad = true → s.bad = true
  doc : s.writer = none → s.doc = q.doc
  nodup : s.readers.Nodup
  fit : ∀ t, Fit s q t (s.threads t)
  order : ∀ t, (s.log.filter (fun e => e.1 == t)).map (fun e => e.2.1) ++ (s.threads t).todo = ps t

theorem inv_init (d0 : D) (ps : Nat → List (Op D R)) : Inv d0 ps (init d0 ps) ⟨d0, false⟩ where
  serial := .nil _
  bad := rfl
  cmdBad := fun h => by simp [init] at h
  doc := fun _ => rfl
  nodup := List.nodup_nil
  fit := fun t => .idle _ (by simp [init]) (by simp [init]) (by simp [init])
  order := fun t => by simp [init]

@[simp] theorem set_self (s : St D R) (t : Nat) (th : Thread D R) : (s.set t th).threads t = th := by simp [St.set]
theorem set_ne (s : St D R) {t u : Nat} (th : Thread D R) (h : u ≠ t) : (s.set t th).threads u = s.threads u := by simp [St.set, h]

theorem order_done {s : St D R} {ps : Nat → List (Op D R)} {t : Nat} {op : Op D R} {rest : List (Op D R)} (r : Res R)
    (h : ∀ u, (s.log.filter (fun e => e.1 == u)).map (fun e => e.2.1) ++ (s.threads u).todo = ps u)
    (ht : (s.threads t).todo = op :: rest) (a : Act D R) (u : Nat) :
    ((s.log ++ [(t, op, r)]).filter (fun e => e.1 == u)).map (fun e => e.2.1) ++ ((s.set t ⟨rest, a⟩).threads u).todo = ps u := by
  by_cases e : u = t
  · subst e
    have := h u
    rw [ht] at this
    simp [List.filter_append, set_self, ← this]
  · rw [set_ne _ _ e, ← h u]
    have : (t == u) = false := by simp; exact fun h => e h.symm
    simp [List.filter_append, this]

theorem order_set {s : St D R} {ps : Nat → List (Op D R)} {t : Nat} {todo : List (Op D R)}
    (h : ∀ u, (s.log.filter (fun e => e.1 == u)).map (fun e => e.2.1) ++ (s.threads u).todo = ps u)
    (ht : (s.threads t).todo = todo) (a : Act D R) (u : Nat) :
    (s.log.filter (fun e => e.1 == u)).map (fun e => e.2.1) ++ ((s.set t ⟨todo, a⟩).threads u).todo = ps u := by
  by_cases e : u = t
  · subst e
    rw [← h u, set_self, ht]
  · rw [set_ne _ _ e, ← h u]

/-- A change elsewhere leaves a thread fitting. -/
theorem Fit.mono {s s' : St D R} {q q' : Sole D} {t : Nat} {th : Thread D R} (h : Fit s q t th) (hc : s'.cmd = some t ↔ s.cmd = some t)
    (hw : s'.writer = some t ↔ s.writer = some t) (hr : t ∈ s'.readers ↔ t ∈ s.readers)
    (hwr : s.writer = some t → s'.readers = [] ∧ s'.bad = s.bad ∧ s'.doc = s.doc ∧ q'.doc = q.doc)
    (hrd : t ∈ s.readers → s.writer = none → s.bad = false → s'.writer = none ∧ s'.bad = false ∧ s'.doc = s.doc)
    (hb : s.bad = true → s'.bad = true) : Fit s' q' t th := by
  cases h with
  | idle todo h1 h2 h3 => exact .idle _ (fun e => h1 (hc.1 e)) (fun e => h2 (hw.1 e)) (fun e => h3 (hr.1 e))
  | locked p rest h1 h2 h3 => exact .locked _ _ (hc.2 h1) (fun e => h2 (hw.1 e)) (fun e => h3 (hr.1 e))
  | exec p p0 rest h1 h2 h3 h4 h5 =>
    obtain ⟨e1, e2, e3, e4⟩ := hwr h2
    exact .exec _ _ _ (hc.2 h1) (hw.2 h2) e1 (by rw [e2, h4]) (by rw [e3, e4, h5])
  | write p p0 rest h1 h2 h3 h4 h5 =>
    obtain ⟨e1, e2, e3, e4⟩ := hwr h2
    exact .write _ _ _ (fun e => h1 (hc.1 e)) (hw.2 h2) e1 (by rw [e2, h4]) (by rw [e3, e4, h5])
  | leaving todo b h1 h2 h3 h4 => exact .leaving _ _ (hc.2 h1) (fun e => h2 (hw.1 e)) (fun e => h3 (hr.1 e)) (fun e => hb (h4 e))
  | reading p p0 rest h1 h2 h3 h4 h5 =>
    obtain ⟨e1, e2, e3⟩ := hrd h3 h2 h4
    exact .reading _ _ _ (fun e => h1 (hc.1 e)) e1 (hr.2 h3) e2 (by rw [e3, h5])

theorem ne_some {o : Option Nat} {t u : Nat} (h : o = some t) (hu : u ≠ t) : o ≠ some u := by
  rw [h]; intro e; exact hu (Option.some.inj e).symm

variable {d0 : D} {ps : Nat → List (Op D R)} {s s' : St D R} {q : Sole D} {t : Nat}

/-- While there is a writer, there are no readers, and the document is not poisoned. -/
theorem Inv.alone (h : Inv d0 ps s q) (hw : s.writer = some t) : s.readers = [] ∧ s.bad = false := by
  have := h.fit t
  generalize s.threads t = th at this
  cases this <;> first | exact absurd hw (by assumption) | exact ⟨by assumption, by assumption⟩ | simp_all

theorem inv_lockCmd (h : Inv d0 ps s q) {p : Prog D R} {rest : List (Op D R)} (ht : s.threads t = ⟨.exec p :: rest, .idle⟩)
    (hs : lockCmd s t p rest = some s') : ∃ q', Inv d0 ps s' q' := by
  have hf := h.fit t
  rw [ht] at hf
  cases hf with
  | idle _ h1 h2 h3 =>
  unfold lockCmd at hs
  cases hc : s.cmd with
  | some c => simp [hc] at hs
  | none =>
    rw [hc] at hs
    dsimp only at hs
    by_cases hb : s.cmdBad = true
    · rw [if_pos hb] at hs
      obtain rfl := Option.some.inj hs
      have hq : q.broken = true := by rw [← h.bad]; exact h.cmdBad hb
      refine ⟨q, ?_, h.bad, h.cmdBad, h.doc, h.nodup, ?_, ?_⟩
      · obtain ⟨d, b⟩ := q
        dsimp only at hq; subst hq
        exact .snoc _ _ _ _ _ _ _ h.serial (.refused _ _)
      · intro u
        by_cases e : u = t
        · subst e
          show Fit _ _ _ ((s.set u _).threads u)
          rw [set_self]
          exact .idle _ h1 h2 h3
        · show Fit _ _ _ ((s.set t _).threads u)
          rw [set_ne _ _ e]
          exact (h.fit u).mono Iff.rfl Iff.rfl Iff.rfl (fun hw => ⟨(h.alone hw).1, rfl, rfl, rfl⟩) (fun a b c => ⟨b, c, rfl⟩) id
      · intro u
        exact order_done .err h.order (by rw [ht]) .idle u
    · rw [if_neg hb] at hs
      obtain rfl := Option.some.inj hs
      refine ⟨q, h.serial, h.bad, h.cmdBad, h.doc, h.nodup, ?_, ?_⟩
      · intro u
        by_cases e : u = t
        · subst e
          show Fit _ _ _ ((s.set u _).threads u)
          rw [set_self]
          exact .locked _ _ rfl h2 h3
        · show Fit _ _ _ ((s.set t _).threads u)
          rw [set_ne _ _ e]
          refine (h.fit u).mono ⟨fun e' => absurd e' (ne_some (t := t) rfl e), fun e' => ?_⟩ Iff.rfl Iff.rfl (fun hw => ⟨(h.alone hw).1, rfl, rfl, rfl⟩) (fun a b c => ⟨b, c, rfl⟩) id
          rw [hc] at e'; exact nomatch e'
      · intro u
        exact order_set h.order (by rw [ht]) (.locked p) u

/-- Asking for the write lock, with or without the command lock. -/
theorem inv_lockWrite (h : Inv d0 ps s q) {p : Prog D R} {op : Op D R} {cmd : Bool} {rest : List (Op D R)} {a : Act D R}
    (ht : s.threads t = ⟨op :: rest, a⟩)
    (hk : cmd = true ∧ op = .exec p ∧ s.cmd = some t ∨ cmd = false ∧ op = .write p ∧ s.cmd ≠ some t)
    (hs : lockWrite s t op cmd p rest = some s') : ∃ q', Inv d0 ps s' q' := by
  unfold lockWrite at hs
  by_cases hf : s.writer = none ∧ s.readers = []
  · rw [if_pos hf] at hs
    obtain ⟨hw, hr⟩ := hf
    by_cases hb : s.bad = true
    · rw [if_pos hb] at hs
      obtain rfl := Option.some.inj hs
      have hq : q.broken = true := by rw [← h.bad]; exact hb
      refine ⟨q, ?_, h.bad, h.cmdBad, h.doc, h.nodup, ?_, ?_⟩
      · obtain ⟨d, b⟩ := q
        dsimp only at hq; subst hq
        exact .snoc _ _ _ _ _ _ _ h.serial (.refused _ _)
      · intro u
        by_cases e : u = t
        · subst e
          show Fit _ _ _ ((s.set u _).threads u)
          rw [set_self]
          refine .idle _ ?_ ?_ ?_
          · rcases hk with ⟨rfl, _, hc⟩ | ⟨rfl, _, hc⟩
            · simp
            · simpa using hc
          · show s.writer ≠ _; rw [hw]; simp
          · show _ ∉ s.readers; rw [hr]; simp
        · show Fit _ _ _ ((s.set t _).threads u)
          rw [set_ne _ _ e]
          refine (h.fit u).mono ?_ Iff.rfl Iff.rfl (fun hw' => ⟨(h.alone hw').1, rfl, rfl, rfl⟩) (fun a b c => ⟨b, c, rfl⟩) id
          rcases hk with ⟨rfl, _, hc⟩ | ⟨rfl, _, hc⟩
          · exact ⟨fun e' => by simp at e', fun e' => absurd e' (ne_some hc e)⟩
          · simp [St.done, St.set]
      · intro u
        exact order_done .err h.order (by rw [ht]) .idle u
    · rw [if_neg hb] at hs
      obtain rfl := Option.some.inj hs
      have hb' : s.bad = false := by simpa using hb
      refine ⟨q, h.serial, h.bad, h.cmdBad, fun e => by simp at e, h.nodup, ?_, ?_⟩
      · intro u
        by_cases e : u = t
        · subst e
          show Fit _ _ _ ((s.set u _).threads u)
          rw [set_self]
          rcases hk with ⟨rfl, rfl, hc⟩ | ⟨rfl, rfl, hc⟩
          · exact .exec _ _ _ hc rfl hr hb' (by rw [← h.doc hw]; rfl)
          · exact .write _ _ _ hc rfl hr hb' (by rw [← h.doc hw]; rfl)
        · show Fit _ _ _ ((s.set t _).threads u)
          rw [set_ne _ _ e]
          refine (h.fit u).mono Iff.rfl ⟨fun e' => absurd e' (ne_some (t := t) rfl e), fun e' => ?_⟩ Iff.rfl (fun hw' => ?_) (fun a _ _ => ?_) id
          · rw [hw] at e'; exact nomatch e'
          · rw [hw] at hw'; exact nomatch hw'
          · rw [hr] at a; exact nomatch a
      · intro u
        exact order_set h.order (by rw [ht]) _ u
  · rw [if_neg hf] at hs
    exact nomatch hs

theorem inv_lockRead (h : Inv d0 ps s q) {p : Look D R} {rest : List (Op D R)} (ht : s.threads t = ⟨.read p :: rest, .idle⟩)
    (hs : lockRead s t p rest = some s') : ∃ q', Inv d0 ps s' q' := by
  have hf := h.fit t
  rw [ht] at hf
  cases hf with
  | idle _ h1 h2 h3 =>
  unfold lockRead at hs
  by_cases hw : s.writer = none
  · rw [if_pos hw] at hs
    by_cases hb : s.bad = true
    · rw [if_pos hb] at hs
      obtain rfl := Option.some.inj hs
      have hq : q.broken = true := by rw [← h.bad]; exact hb
      refine ⟨q, ?_, h.bad, h.cmdBad, h.doc, h.nodup, ?_, ?_⟩
      · obtain ⟨d, b⟩ := q
        dsimp only at hq; subst hq
        exact .snoc _ _ _ _ _ _ _ h.serial (.refused _ _)
      · intro u
        by_cases e : u = t
        · subst e
          show Fit _ _ _ ((s.set u _).threads u)
          rw [set_self]
          exact .idle _ h1 h2 h3
        · show Fit _ _ _ ((s.set t _).threads u)
          rw [set_ne _ _ e]
          exact (h.fit u).mono Iff.rfl Iff.rfl Iff.rfl (fun hw => ⟨(h.alone hw).1, rfl, rfl, rfl⟩) (fun a b c => ⟨b, c, rfl⟩) id
      · intro u
        exact order_done .err h.order (by rw [ht]) .idle u
    · rw [if_neg hb] at hs
      obtain rfl := Option.some.inj hs
      have hb' : s.bad = false := by simpa using hb
      refine ⟨q, h.serial, h.bad, h.cmdBad, h.doc, List.nodup_cons.2 ⟨h3, h.nodup⟩, ?_, ?_⟩
      · intro u
        by_cases e : u = t
        · subst e
          show Fit _ _ _ ((s.set u _).threads u)
          rw [set_self]
          exact .reading _ _ _ h1 hw (by simp) hb' rfl
        · show Fit _ _ _ ((s.set t _).threads u)
          rw [set_ne _ _ e]
          refine (h.fit u).mono Iff.rfl Iff.rfl (by simp [e, St.set]) (fun hw' => ?_) (fun a b c => ⟨b, c, rfl⟩) id
          rw [hw] at hw'; exact nomatch hw'
      · intro u
        exact order_set h.order (by rw [ht]) _ u
  · rw [if_neg hw] at hs
    exact nomatch hs

/-- One step with the write lock. -/
theorem inv_stepWrite (h : Inv d0 ps s q) {p : Prog D R} {op : Op D R} {cmd : Bool} {rest : List (Op D R)}
    (ht : s.threads t = ⟨op :: rest, .writing cmd p⟩) : ∃ q', Inv d0 ps (stepWrite s t op cmd rest p) q' := by
  have hf := h.fit t
  rw [ht] at hf
  have hk : ∃ p0, (cmd = true ∧ op = .exec p0 ∧ s.cmd = some t ∨ cmd = false ∧ op = .write p0 ∧ s.cmd ≠ some t) ∧
      s.writer = some t ∧ s.readers = [] ∧ s.bad = false ∧ p0.run q.doc = p.run s.doc := by
    cases hf with
    | exec _ p0 _ h1 h2 h3 h4 h5 => exact ⟨p0, .inl ⟨rfl, rfl, h1⟩, h2, h3, h4, h5⟩
    | write _ p0 _ h1 h2 h3 h4 h5 => exact ⟨p0, .inr ⟨rfl, rfl, h1⟩, h2, h3, h4, h5⟩
  obtain ⟨p0, hk, hw, hr, hb, hp⟩ := hk
  have hq : q = ⟨q.doc, false⟩ := by
    have := h.bad; rw [hb] at this
    obtain ⟨d, b⟩ := q; dsimp only at this; subst this; rfl
  have others : ∀ u, u ≠ t → ∀ (s1 : St D R) (q1 : Sole D), (s1.cmd = s.cmd) → (s1.writer = none ∨ s1.writer = some t) → s1.readers = [] →
      Fit s1 q1 u (s.threads u) := by
    intro u e s1 q1 e1 e2 e3
    refine (h.fit u).mono (by rw [e1]) ⟨fun e' => ?_, fun e' => absurd e' (ne_some hw e)⟩ (by rw [e3, hr]) (fun hw' => absurd hw' (ne_some hw e))
      (fun a _ _ => ?_) (fun e' => ?_)
    · rcases e2 with e2 | e2
      · rw [e2] at e'; exact nomatch e'
      · exact absurd e' (ne_some e2 e)
    · rw [hr] at a; exact nomatch a
    · rw [hb] at e'; exact nomatch e'
  cases p with
  | ret r =>
    refine ⟨⟨s.doc, false⟩, ?_, hb, h.cmdBad, fun _ => rfl, h.nodup, ?_, ?_⟩
    · refine .snoc _ _ _ _ _ _ _ h.serial ?_
      rw [hq]
      rcases hk with ⟨_, rfl, _⟩ | ⟨_, rfl, _⟩
      · exact .exec _ _ _ _ (by rw [hp]; rfl)
      · exact .write _ _ _ _ (by rw [hp]; rfl)
    · intro u
      by_cases e : u = t
      · subst e
        show Fit _ _ _ ((s.set u _).threads u)
        rw [set_self]
        rcases hk with ⟨rfl, rfl, hc⟩ | ⟨rfl, rfl, hc⟩
        · exact .leaving _ _ hc (by simp [stepWrite]) (by simp [stepWrite, St.done, St.set, hr]) (fun e => nomatch e)
        · exact .idle _ hc (by simp [stepWrite]) (by simp [stepWrite, St.done, St.set, hr])
      · show Fit _ _ _ ((s.set t _).threads u)
        rw [set_ne _ _ e]
        exact others u e _ _ rfl (.inl rfl) hr
    · intro u
      exact order_done (.ok r) h.order (by rw [ht]) _ u
  | panic =>
    refine ⟨⟨s.doc, true⟩, ?_, rfl, fun _ => rfl, fun _ => rfl, h.nodup, ?_, ?_⟩
    · refine .snoc _ _ _ _ _ _ _ h.serial ?_
      rw [hq]
      rcases hk with ⟨_, rfl, _⟩ | ⟨_, rfl, _⟩
      · exact .execPanic _ _ _ (by rw [hp]; rfl)
      · exact .writePanic _ _ _ (by rw [hp]; rfl)
    · intro u
      by_cases e : u = t
      · subst e
        show Fit _ _ _ ((s.set u _).threads u)
        rw [set_self]
        rcases hk with ⟨rfl, rfl, hc⟩ | ⟨rfl, rfl, hc⟩
        · exact .leaving _ _ hc (by simp [stepWrite]) (by simp [stepWrite, St.done, St.set, hr]) (fun _ => rfl)
        · exact .idle _ hc (by simp [stepWrite]) (by simp [stepWrite, St.done, St.set, hr])
      · show Fit _ _ _ ((s.set t _).threads u)
        rw [set_ne _ _ e]
        exact others u e _ _ rfl (.inl rfl) hr
    · intro u
      exact order_done .panic h.order (by rw [ht]) _ u
  | step upd next =>
    refine ⟨q, h.serial, h.bad, h.cmdBad, fun e => ?_, h.nodup, ?_, ?_⟩
    · rw [show (stepWrite s t op cmd rest (.step upd next)).writer = s.writer from rfl, hw] at e
      exact nomatch e
    · intro u
      by_cases e : u = t
      · subst e
        show Fit _ _ _ ((s.set u _).threads u)
        rw [set_self]
        rcases hk with ⟨rfl, rfl, hc⟩ | ⟨rfl, rfl, hc⟩
        · exact .exec _ _ _ hc hw hr hb (by rw [hp]; rfl)
        · exact .write _ _ _ hc hw hr hb (by rw [hp]; rfl)
      · show Fit _ _ _ ((s.set t _).threads u)
        rw [set_ne _ _ e]
        exact others u e _ _ rfl (.inr hw) hr
    · intro u
      exact order_set h.order (by rw [ht]) _ u

/-- One step with a read lock. -/
theorem inv_stepRead (h : Inv d0 ps s q) {p : Look D R} {op : Op D R} {rest : List (Op D R)}
    (ht : s.threads t = ⟨op :: rest, .reading p⟩) : ∃ q', Inv d0 ps (stepRead s t op rest p) q' := by
  have hf := h.fit t
  rw [ht] at hf
  cases hf with
  | reading _ p0 _ hc hw hr hb hp =>
  have hq : q = ⟨s.doc, false⟩ := by
    have := h.bad; rw [hb] at this
    rw [h.doc hw]
    obtain ⟨d, b⟩ := q; dsimp only at this; subst this; rfl
  have fin : ∀ (r : Res R), p0.run s.doc = r →
      ∃ q', Inv d0 ps { s.done t (.read p0) r rest .idle with readers := s.readers.erase t } q' := by
    intro r hr'
    refine ⟨q, ?_, h.bad, h.cmdBad, h.doc, h.nodup.erase _, ?_, ?_⟩
    · refine .snoc _ _ _ _ _ _ _ h.serial ?_
      rw [hq]
      exact .read _ _ _ hr'
    · intro u
      by_cases e : u = t
      · subst e
        show Fit _ _ _ ((s.set u _).threads u)
        rw [set_self]
        refine .idle _ hc (fun e => ?_) (fun e => ?_)
        · rw [show s.writer = some u from e] at hw; exact nomatch hw
        · exact (h.nodup.mem_erase_iff.1 e).1 rfl
      · show Fit _ _ _ ((s.set t _).threads u)
        rw [set_ne _ _ e]
        refine (h.fit u).mono Iff.rfl Iff.rfl (h.nodup.mem_erase_iff.trans ⟨And.right, fun a => ⟨e, a⟩⟩) (fun hw' => ?_) (fun a b c => ⟨b, c, rfl⟩) id
        rw [hw] at hw'; exact nomatch hw'
    · intro u
      exact order_done r h.order (by rw [ht]) _ u
  cases p with
  | ret r => exact fin _ hp
  | panic => exact fin _ hp
  | look next =>
    refine ⟨q, h.serial, h.bad, h.cmdBad, h.doc, h.nodup, ?_, ?_⟩
    · intro u
      by_cases e : u = t
      · subst e
        show Fit _ _ _ ((s.set u _).threads u)
        rw [set_self]
        exact .reading _ _ _ hc hw hr hb hp
      · show Fit _ _ _ ((s.set t _).threads u)
        rw [set_ne _ _ e]
        exact (h.fit u).mono Iff.rfl Iff.rfl Iff.rfl (fun hw' => ⟨(h.alone hw').1, rfl, rfl, rfl⟩) (fun a b c => ⟨b, c, rfl⟩) id
    · intro u
      exact order_set h.order (by rw [ht]) _ u

/-- Giving back the command lock. -/
theorem inv_leave (h : Inv d0 ps s q) {todo : List (Op D R)} {b : Bool} (ht : s.threads t = ⟨todo, .leaving b⟩) :
    ∃ q', Inv d0 ps (unlockCmd s t todo b) q' := by
  have hf := h.fit t
  rw [ht] at hf
  cases hf with
  | leaving _ _ hc hw hr hb =>
  refine ⟨q, h.serial, h.bad, ?_, h.doc, h.nodup, ?_, ?_⟩
  · intro e
    have e : (s.cmdBad || b) = true := e
    rw [Bool.or_eq_true] at e
    rcases e with e | e
    · exact h.cmdBad e
    · exact hb e
  · intro u
    by_cases e : u = t
    · subst e
      show Fit _ _ _ ((s.set u _).threads u)
      rw [set_self]
      exact .idle _ (by simp [unlockCmd]) hw hr
    · show Fit _ _ _ ((s.set t _).threads u)
      rw [set_ne _ _ e]
      exact (h.fit u).mono ⟨fun e' => by simp [unlockCmd] at e', fun e' => absurd e' (ne_some hc e)⟩ Iff.rfl Iff.rfl
        (fun hw' => ⟨(h.alone hw').1, rfl, rfl, rfl⟩) (fun a b c => ⟨b, c, rfl⟩) id
  · intro u
    exact order_set h.order (by rw [ht]) _ u

/-- Every step keeps the invariant. -/
theorem inv_step (h : Inv d0 ps s q) (hs : step s t = some s') : ∃ q', Inv d0 ps s' q' := by
  have hf := h.fit t
  generalize hth : s.threads t = th at hf
  unfold step at hs
  rw [hth] at hs
  cases hf with
  | idle todo h1 h2 h3 =>
    cases todo with
    | nil => exact nomatch hs
    | cons op rest =>
      cases op with
      | exec p => exact inv_lockCmd h hth hs
      | write p => exact inv_lockWrite h hth (.inr ⟨rfl, rfl, h1⟩) hs
      | read p => exact inv_lockRead h hth hs
  | locked p rest h1 h2 h3 => exact inv_lockWrite h hth (.inl ⟨rfl, rfl, h1⟩) hs
  | exec p p0 rest =>
    obtain rfl := Option.some.inj hs
    exact inv_stepWrite h hth
  | write p p0 rest =>
    obtain rfl := Option.some.inj hs
    exact inv_stepWrite h hth
  | leaving todo b =>
    obtain rfl := Option.some.inj hs
    exact inv_leave h hth
  | reading p p0 rest =>
    obtain rfl := Option.some.inj hs
    exact inv_stepRead h hth

theorem inv_sched (h : Inv d0 ps s q) (l : List Nat) : ∃ q', Inv d0 ps (sched s l) q' := by
  induction l generalizing s q with
  | nil => exact ⟨q, h⟩
  | cons t l ih =>
    unfold sched
    cases hs : step s t with
    | none => exact ih h
    | some s' =>
      obtain ⟨q', h'⟩ := inv_step h hs
      exact ih h'

/-- Whenever a thread is not done, some thread can go on. -/
theorem progress (h : Inv d0 ps s q) (t : Nat) (ht : (s.threads t).todo ≠ [] ∨ ∃ b, (s.threads t).act = .leaving b) :
    ∃ u, (step s u).isSome = true := by
  -- the holder of the write lock and readers can always go on
  have hw : ∀ w, s.writer = some w → (step s w).isSome = true := by
    intro w hw
    have hf := h.fit w
    generalize hth : s.threads w = th at hf
    cases hf with
    | idle _ _ h2 => exact absurd hw h2
    | locked _ _ _ h2 => exact absurd hw h2
    | exec p p0 rest => unfold step; rw [hth]; rfl
    | write p p0 rest => unfold step; rw [hth]; rfl
    | leaving _ _ _ h2 => exact absurd hw h2
    | reading _ _ _ _ h2 => rw [hw] at h2; exact nomatch h2
  have hr : ∀ w, w ∈ s.readers → (step s w).isSome = true := by
    intro w hw
    have hf := h.fit w
    generalize hth : s.threads w = th at hf
    cases hf with
    | idle _ _ _ h3 => exact absurd hw h3
    | locked _ _ _ _ h3 => exact absurd hw h3
    | exec p p0 rest _ _ h3 => rw [h3] at hw; exact nomatch hw
    | write p p0 rest _ _ h3 => rw [h3] at hw; exact nomatch hw
    | leaving _ _ _ _ h3 => exact absurd hw h3
    | reading p p0 rest => unfold step; rw [hth]; rfl
  by_cases hwn : s.writer = none
  · by_cases hrn : s.readers = []
    · have lw : ∀ (u : Nat) (op : Op D R) (c : Bool) (p : Prog D R) (rest : List (Op D R)), (lockWrite s u op c p rest).isSome = true := by
        intro u op c p rest
        unfold lockWrite
        rw [if_pos ⟨hwn, hrn⟩]
        split <;> rfl
      have lr : ∀ (u : Nat) (p : Look D R) (rest : List (Op D R)), (lockRead s u p rest).isSome = true := by
        intro u p rest
        unfold lockRead
        rw [if_pos hwn]
        split <;> rfl
      -- the holder of the command lock
      have hcm : ∀ c, s.cmd = some c → (step s c).isSome = true := by
        intro c hc
        have hf := h.fit c
        generalize hth : s.threads c = th at hf
        cases hf with
        | idle _ h1 => exact absurd hc h1
        | locked p rest => unfold step; rw [hth]; exact lw _ _ _ _ _
        | exec p p0 rest => unfold step; rw [hth]; rfl
        | write p p0 rest h1 => exact absurd hc h1
        | leaving todo b => unfold step; rw [hth]; rfl
        | reading _ _ _ h1 => exact absurd hc h1
      cases hc : s.cmd with
      | some c => exact ⟨c, hcm c hc⟩
      | none =>
        refine ⟨t, ?_⟩
        have hf := h.fit t
        generalize hth : s.threads t = th at hf ht
        cases hf with
        | idle todo =>
          unfold step; rw [hth]
          cases todo with
          | nil =>
            rcases ht with ht | ⟨b, ht⟩
            · exact absurd rfl ht
            · exact nomatch ht
          | cons op rest =>
            cases op with
            | exec p =>
              show (lockCmd s t p rest).isSome = true
              unfold lockCmd
              rw [hc]
              dsimp only
              split <;> rfl
            | write p => exact lw _ _ _ _ _
            | read p => exact lr _ _ _
        | locked p rest h1 => rw [hc] at h1; exact nomatch h1
        | exec p p0 rest h1 => rw [hc] at h1; exact nomatch h1
        | write p p0 rest h1 h2 => rw [hwn] at h2; exact nomatch h2
        | leaving todo b h1 => rw [hc] at h1; exact nomatch h1
        | reading p p0 rest h1 h2 h3 => rw [hrn] at h3; exact nomatch h3
    · obtain ⟨w, l, e⟩ := List.exists_cons_of_ne_nil hrn
      exact ⟨w, hr w (by rw [e]; simp)⟩
  · obtain ⟨w, e⟩ := Option.ne_none_iff_exists'.1 hwn
    exact ⟨w, hw w e⟩

/-! ## Every execution comes to an end -/

/-- The moves of one thread, whatever the others do. -/
inductive Move : Thread D R → Thread D R → Prop
  | drop (op : Op D R) (rest : List (Op D R)) (a a' : Act D R) : Move ⟨rest, a'⟩ ⟨op :: rest, a⟩
  | take (p : Prog D R) (rest : List (Op D R)) : Move ⟨.exec p :: rest, .locked p⟩ ⟨.exec p :: rest, .idle⟩
  | write (op : Op D R) (p : Prog D R) (c : Bool) (rest : List (Op D R)) : Move ⟨op :: rest, .writing c p⟩ ⟨op :: rest, .idle⟩
  | lwrite (op : Op D R) (p : Prog D R) (c : Bool) (rest : List (Op D R)) : Move ⟨op :: rest, .writing c p⟩ ⟨op :: rest, .locked p⟩
  | read (op : Op D R) (p : Look D R) (rest : List (Op D R)) : Move ⟨op :: rest, .reading p⟩ ⟨op :: rest, .idle⟩
  | step (op : Op D R) (u : D → D) (n : D → Prog D R) (d : D) (c : Bool) (rest : List (Op D R)) :
      Move ⟨op :: rest, .writing c (n d)⟩ ⟨op :: rest, .writing c (.step u n)⟩
  | look (op : Op D R) (n : D → Look D R) (d : D) (rest : List (Op D R)) :
      Move ⟨op :: rest, .reading (n d)⟩ ⟨op :: rest, .reading (.look n)⟩
  | leave (todo : List (Op D R)) (b : Bool) : Move ⟨todo, .idle⟩ ⟨todo, .leaving b⟩

theorem acc_move (todo : List (Op D R)) : ∀ a : Act D R, Acc Move (⟨todo, a⟩ : Thread D R) := by
  induction todo with
  | nil =>
    have hi : Acc Move (⟨[], .idle⟩ : Thread D R) := ⟨_, fun y hy => by cases hy⟩
    intro a
    refine ⟨_, fun y hy => ?_⟩
    cases hy
    exact hi
  | cons op rest ih =>
    have hw : ∀ (p : Prog D R) (c : Bool), Acc Move (⟨op :: rest, .writing c p⟩ : Thread D R) := by
      intro p
      induction p with
      | ret r => intro c; exact ⟨_, fun y hy => by cases hy; exact ih _⟩
      | panic => intro c; exact ⟨_, fun y hy => by cases hy; exact ih _⟩
      | step u n ihn =>
        intro c
        refine ⟨_, fun y hy => ?_⟩
        cases hy with
        | drop => exact ih _
        | step => exact ihn _ c
    have hr : ∀ (p : Look D R), Acc Move (⟨op :: rest, .reading p⟩ : Thread D R) := by
      intro p
      induction p with
      | ret r => exact ⟨_, fun y hy => by cases hy; exact ih _⟩
      | panic => exact ⟨_, fun y hy => by cases hy; exact ih _⟩
      | look n ihn =>
        refine ⟨_, fun y hy => ?_⟩
        cases hy with
        | drop => exact ih _
        | look => exact ihn _
    have hl : ∀ p, Acc Move (⟨op :: rest, .locked p⟩ : Thread D R) := by
      intro p
      refine ⟨_, fun y hy => ?_⟩
      cases hy with
      | drop => exact ih _
      | lwrite => exact hw _ _
    have hi : Acc Move (⟨op :: rest, .idle⟩ : Thread D R) := by
      refine ⟨_, fun y hy => ?_⟩
      cases hy with
      | drop => exact ih _
      | take => exact hl _
      | write => exact hw _ _
      | read => exact hr _
    intro a
    cases a with
    | idle => exact hi
    | locked p => exact hl p
    | writing c p => exact hw p c
    | leaving b =>
      refine ⟨_, fun y hy => ?_⟩
      cases hy with
      | drop => exact ih _
      | leave => exact hi
    | reading p => exact hr p

/-- One of the first `n` threads moves. -/
def Many (n : Nat) (g' g : Nat → Thread D R) : Prop := ∃ t, t < n ∧ Move (g' t) (g t) ∧ ∀ u, u ≠ t → g' u = g u

theorem acc_many (n : Nat) : ∀ g : Nat → Thread D R, Acc (Many n) g := by
  induction n with
  | zero => exact fun g => ⟨_, fun g' h => by obtain ⟨t, ht, _⟩ := h; omega⟩
  | succ n ih =>
    have key : ∀ th : Thread D R, Acc Move th → ∀ g : Nat → Thread D R, g n = th → Acc (Many (n + 1)) g := by
      intro th hth
      induction hth with
      | intro th _ iht =>
        intro g hg
        have inner : ∀ g : Nat → Thread D R, Acc (Many n) g → g n = th → Acc (Many (n + 1)) g := by
          intro g hacc
          induction hacc with
          | intro g _ ihg =>
            intro hg
            refine ⟨_, fun g' h => ?_⟩
            obtain ⟨t, ht, hm, ho⟩ := h
            by_cases e : t = n
            · subst e
              rw [hg] at hm
              exact iht _ hm g' rfl
            · exact ihg g' ⟨t, by omega, hm, ho⟩ (by rw [ho n (fun h => e h.symm), hg])
        exact inner g (ih g) hg
    exact fun g => key _ (acc_move (g n).todo (g n).act) g rfl

/-- A step is a move of the thread whose turn it is, and of no other. -/
theorem step_move (hs : step s t = some s') : Move (s'.threads t) (s.threads t) ∧ ∀ u, u ≠ t → s'.threads u = s.threads u := by
  have key : ∃ th, s'.threads = (s.set t th).threads ∧ Move th (s.threads t) := by
    generalize hth : s.threads t = th at *
    obtain ⟨todo, act⟩ := th
    have lw : ∀ (op : Op D R) (c : Bool) (p : Prog D R) (rest : List (Op D R)), lockWrite s t op c p rest = some s' →
        todo = op :: rest → (act = .idle ∨ act = .locked p) → ∃ th, s'.threads = (s.set t th).threads ∧ Move th ⟨todo, act⟩ := by
      intro op c p rest h ht ha
      unfold lockWrite at h
      split at h
      · split at h
        · obtain rfl := Option.some.inj h
          exact ⟨⟨rest, .idle⟩, rfl, by rw [ht]; exact .drop _ _ _ _⟩
        · obtain rfl := Option.some.inj h
          refine ⟨⟨op :: rest, .writing c p⟩, rfl, ?_⟩
          rw [ht]
          rcases ha with rfl | rfl
          · exact .write _ _ _ _
          · exact .lwrite _ _ _ _
      · exact nomatch h
    unfold step at hs
    rw [hth] at hs
    cases act with
    | idle =>
      cases todo with
      | nil => exact nomatch hs
      | cons op rest =>
        cases op with
        | exec p =>
          have hs : lockCmd s t p rest = some s' := hs
          unfold lockCmd at hs
          split at hs
          · exact nomatch hs
          · split at hs
            · obtain rfl := Option.some.inj hs
              exact ⟨⟨rest, .idle⟩, rfl, .drop _ _ _ _⟩
            · obtain rfl := Option.some.inj hs
              exact ⟨⟨.exec p :: rest, .locked p⟩, rfl, .take _ _⟩
        | write p => exact lw _ _ _ _ hs rfl (.inl rfl)
        | read p =>
          have hs : lockRead s t p rest = some s' := hs
          unfold lockRead at hs
          split at hs
          · split at hs
            · obtain rfl := Option.some.inj hs
              exact ⟨⟨rest, .idle⟩, rfl, .drop _ _ _ _⟩
            · obtain rfl := Option.some.inj hs
              exact ⟨⟨.read p :: rest, .reading p⟩, rfl, .read _ _ _⟩
          · exact nomatch hs
    | leaving b =>
      obtain rfl := Option.some.inj hs
      exact ⟨⟨todo, .idle⟩, rfl, .leave _ _⟩
    | locked p =>
      cases todo with
      | nil => exact nomatch hs
      | cons op rest => exact lw _ _ _ _ hs rfl (.inr rfl)
    | writing c p =>
      cases todo with
      | nil => exact nomatch hs
      | cons op rest =>
        obtain rfl := Option.some.inj hs
        cases p with
        | ret r => exact ⟨_, rfl, .drop _ _ _ _⟩
        | panic => exact ⟨_, rfl, .drop _ _ _ _⟩
        | step u n => exact ⟨_, rfl, .step _ _ _ _ _ _⟩
    | reading p =>
      cases todo with
      | nil => exact nomatch hs
      | cons op rest =>
        obtain rfl := Option.some.inj hs
        cases p with
        | ret r => exact ⟨_, rfl, .drop _ _ _ _⟩
        | panic => exact ⟨_, rfl, .drop _ _ _ _⟩
        | look n => exact ⟨_, rfl, .look _ _ _ _⟩
  obtain ⟨th, h1, h2⟩ := key
  rw [h1]
  exact ⟨by rw [set_self]; exact h2, fun u e => set_ne _ _ e⟩

/-- A step adds at most one operation at the end of the log. -/
theorem step_log (hs : step s t = some s') : s'.log = s.log ∨ ∃ op r, s'.log = s.log ++ [(t, op, r)] := by
  have lw : ∀ (op : Op D R) (c : Bool) (p : Prog D R) (rest : List (Op D R)), lockWrite s t op c p rest = some s' →
      s'.log = s.log ∨ ∃ op r, s'.log = s.log ++ [(t, op, r)] := by
    intro op c p rest h
    unfold lockWrite at h
    split at h
    · split at h
      · obtain rfl := Option.some.inj h; exact .inr ⟨_, _, rfl⟩
      · obtain rfl := Option.some.inj h; exact .inl rfl
    · exact nomatch h
  unfold step at hs
  cases ha : (s.threads t).act with
  | idle =>
    rw [ha] at hs
    cases ht : (s.threads t).todo with
    | nil => rw [ht] at hs; exact nomatch hs
    | cons op rest =>
      rw [ht] at hs
      cases op with
      | exec p =>
        have hs : lockCmd s t p rest = some s' := hs
        unfold lockCmd at hs
        split at hs
        · exact nomatch hs
        · split at hs
          · obtain rfl := Option.some.inj hs; exact .inr ⟨_, _, rfl⟩
          · obtain rfl := Option.some.inj hs; exact .inl rfl
      | write p => exact lw _ _ _ _ hs
      | read p =>
        have hs : lockRead s t p rest = some s' := hs
        unfold lockRead at hs
        split at hs
        · split at hs
          · obtain rfl := Option.some.inj hs; exact .inr ⟨_, _, rfl⟩
          · obtain rfl := Option.some.inj hs; exact .inl rfl
        · exact nomatch hs
  | leaving b =>
    rw [ha] at hs
    obtain rfl := Option.some.inj hs
    exact .inl rfl
  | locked p =>
    rw [ha] at hs
    cases ht : (s.threads t).todo with
    | nil => rw [ht] at hs; exact nomatch hs
    | cons op rest => rw [ht] at hs; exact lw _ _ _ _ hs
  | writing c p =>
    rw [ha] at hs
    cases ht : (s.threads t).todo with
    | nil => rw [ht] at hs; exact nomatch hs
    | cons op rest =>
      rw [ht] at hs
      obtain rfl := Option.some.inj hs
      cases p with
      | ret r => exact .inr ⟨_, _, rfl⟩
      | panic => exact .inr ⟨_, _, rfl⟩
      | step u n => exact .inl rfl
  | reading p =>
    rw [ha] at hs
    cases ht : (s.threads t).todo with
    | nil => rw [ht] at hs; exact nomatch hs
    | cons op rest =>
      rw [ht] at hs
      obtain rfl := Option.some.inj hs
      cases p with
      | ret r => exact .inr ⟨_, _, rfl⟩
      | panic => exact .inr ⟨_, _, rfl⟩
      | look n => exact .inl rfl

theorem sched_append (s : St D R) (a b : List Nat) : sched s (a ++ b) = sched (sched s a) b := by
  induction a generalizing s with
  | nil => rfl
  | cons t a ih => exact ih _

theorem sched_log (s : St D R) (l : List Nat) : s.log <+: (sched s l).log := by
  induction l generalizing s with
  | nil => exact List.prefix_refl _
  | cons t l ih =>
    unfold sched
    refine List.IsPrefix.trans ?_ (ih _)
    cases hs : step s t with
    | none => exact List.prefix_refl _
    | some s' =>
      rcases step_log hs with h | ⟨op, r, h⟩
      · exact h ▸ List.prefix_refl _
      · exact h ▸ List.prefix_append _ _

/-- A thread with nothing left to do takes no steps. -/
def Out (th : Thread D R) : Prop := th.todo = [] ∧ th.act = .idle

theorem step_out (h : Out (s.threads t)) : step s t = none := by
  unfold step
  rw [h.1, h.2]
  rfl

/-- From any state some schedule leads to one in which nobody can go on. -/
theorem to_end (n : Nat) (hn : ∀ t, n ≤ t → Out (s.threads t)) : ∃ l, ∀ t, step (sched s l) t = none := by
  have key : ∀ g : Nat → Thread D R, Acc (Many n) g → ∀ s : St D R, s.threads = g → (∀ t, n ≤ t → Out (s.threads t)) →
      ∃ l, ∀ t, step (sched s l) t = none := by
    intro g hg
    induction hg with
    | intro g _ ih =>
      intro s hs hn
      by_cases hall : ∀ t, step s t = none
      · exact ⟨[], hall⟩
      · obtain ⟨t, ht⟩ := Classical.not_forall.1 hall
        obtain ⟨s', hs'⟩ := Option.ne_none_iff_exists'.1 ht
        obtain ⟨hm, ho⟩ := step_move hs'
        have htn : t < n := Nat.lt_of_not_le (fun h => ht (step_out (hn t h)))
        obtain ⟨l, hl⟩ := ih s'.threads ⟨t, htn, by rw [← hs]; exact hm, by rw [← hs]; exact ho⟩ s' rfl
          (fun u hu => by rw [ho u (by omega)]; exact hn u hu)
        refine ⟨t :: l, ?_⟩
        unfold sched
        rw [hs']
        exact hl
  exact key _ (acc_many n _) s rfl hn

/-- Nobody can go on only when everybody is done. -/
theorem all_out (h : Inv d0 ps s q) (he : ∀ t, step s t = none) (t : Nat) : Out (s.threads t) := by
  have hno : ¬ ((s.threads t).todo ≠ [] ∨ ∃ b, (s.threads t).act = .leaving b) := by
    intro hh
    obtain ⟨u, hu⟩ := progress h t hh
    rw [he u] at hu
    exact nomatch hu
  have ht : (s.threads t).todo = [] := Classical.byContradiction fun e => hno (.inl e)
  refine ⟨ht, ?_⟩
  have hf := h.fit t
  generalize s.threads t = th at hf ht hno
  cases hf with
  | idle => rfl
  | locked => exact nomatch ht
  | exec => exact nomatch ht
  | write => exact nomatch ht
  | leaving todo b => exact absurd (Or.inr ⟨b, rfl⟩) hno
  | reading => exact nomatch ht

/-! ## One after another -/

theorem serial_broken {a b : Sole D} {l : List (Nat × Op D R × Res R)} (h : Serial a l b) (ha : a.broken = true) :
    b = a ∧ ∀ e ∈ l, e.2.2 = .err := by
  induction h with
  | nil => exact ⟨rfl, fun e he => nomatch he⟩
  | snoc s' s'' l t op r h ho ih =>
    obtain ⟨rfl, hl⟩ := ih
    cases ho with
    | refused d op =>
      refine ⟨rfl, fun e he => ?_⟩
      rcases List.mem_append.1 he with he | he
      · exact hl e he
      · rw [List.mem_singleton.1 he]
    | _ => exact nomatch ha

theorem serial_split {a b : Sole D} {l l' : List (Nat × Op D R × Res R)} (h : Serial a (l ++ l') b) :
    ∃ m, Serial a l m ∧ Serial m l' b := by
  induction hn : l'.length generalizing l' b with
  | zero =>
    obtain rfl := List.eq_nil_of_length_eq_zero hn
    rw [List.append_nil] at h
    exact ⟨b, h, .nil _⟩
  | succ n ih =>
    rcases List.eq_nil_or_concat l' with e | ⟨k, x, e⟩
    · rw [e] at hn; exact nomatch hn
    rw [List.concat_eq_append] at e
    subst e
    rw [← List.append_assoc] at h
    generalize hL : (l ++ k) ++ [x] = L at h
    cases h with
    | nil => simp at hL
    | snoc s' _ l2 t op r h ho =>
      obtain ⟨e1, e2⟩ := List.append_inj' hL rfl
      subst e1
      obtain rfl := List.cons.inj e2 |>.1
      obtain ⟨m, h1, h2⟩ := ih h (by simpa using hn)
      exact ⟨m, h1, .snoc _ _ _ _ _ _ _ h2 ho⟩

theorem newId_inj {a b : Nat} (h : newId a = newId b) : a = b := by
  have := List.append_cancel_left h
  have h1 := ofDigitChars_showNat a
  have h2 := ofDigitChars_showNat b
  unfold showNat at h1 h2
  rw [← h1, ← h2, this]

end Verif.Sync
