import Verif.Spec.ExtContext
import Verif.Lemmas.Extensions
/-!
# C160 — what extensions do through their context
-/
namespace Verif.Props.ExtContext
open Verif Verif.ExtContext Verif.Spec.ExtContext

/-- Something written and read by keys, where a write changes what is read for its key. -/
theorem last_write {S K V : Type} [DecidableEq K] (read : S → K → Option V) (write : S → K × V → S)
    (law : ∀ s p k, read (write s p) k = if k = p.1 then some p.2 else read s k) (l : List (K × V)) : ∀ (s : S) (k : K),
    (∃ before v later, l = before ++ (k, v) :: later ∧ (∀ p ∈ later, p.1 ≠ k) ∧ read (l.foldl write s) k = some v) ∨
    ((∀ p ∈ l, p.1 ≠ k) ∧ read (l.foldl write s) k = read s k) := by
  induction l with
  | nil => intro s k; exact .inr ⟨by simp, rfl⟩
  | cons a l ih =>
    intro s k
    rcases ih (write s a) k with ⟨before, v, later, h1, h2, h3⟩ | ⟨h1, h2⟩
    · exact .inl ⟨a :: before, v, later, by rw [h1]; rfl, h2, h3⟩
    · by_cases ha : k = a.1
      · subst ha
        exact .inl ⟨[], a.2, l, rfl, h1, by rw [List.foldl_cons, h2, law, if_pos rfl]⟩
      · refine .inr ⟨?_, by rw [List.foldl_cons, h2, law, if_neg ha]⟩
        intro p hp
        rcases List.mem_cons.1 hp with rfl | hp
        · exact fun e => ha e.symm
        · exact h1 p hp

/-- A configuration value written. -/
def put (m : Map Str Str) (p : Str × Str) : Map Str Str := m.insert p.1 p.2

theorem put_law (m : Map Str Str) (p : Str × Str) (k : Str) :
    Map.get (put m p) k = if k = p.1 then some p.2 else Map.get m k := Map.get_insert m p.1 k p.2

/-- Data written. -/
def putData (d : Map Str (Map Str Str)) (p : (Str × Str) × Str) : Map Str (Map Str Str) :=
  d.insert p.1.1 (((d.get p.1.1).getD []).insert p.1.2 p.2)

/-- Data read. -/
def readData (d : Map Str (Map Str Str)) (k : Str × Str) : Option Str := (d.get k.1).bind (fun d => d.get k.2)

theorem putData_law (d : Map Str (Map Str Str)) (p : (Str × Str) × Str) (k : Str × Str) :
    readData (putData d p) k = if k = p.1 then some p.2 else readData d k := by
  obtain ⟨⟨n, a⟩, v⟩ := p
  obtain ⟨n', a'⟩ := k
  unfold readData putData
  simp only [Prod.mk.injEq]
  by_cases hn : n' = n
  · subst hn
    rw [Map.get_insert_self, Option.bind_some]
    by_cases hk : a' = a
    · subst hk; simp
    · rw [Map.get_insert_ne hk, if_neg (by simp [hk])]
      cases d.get n' <;> simp
  · rw [Map.get_insert_ne hn, if_neg (by simp [hn])]

theorem work_multi (acts : List Action) : ∀ (c : Ctx),
    (acts.foldl (Action.run true) c).mgr.config = (configSet acts).foldl put c.mgr.config ∧
    (acts.foldl (Action.run true) c).mgr.data = (dataSet c.name acts).foldl putData c.mgr.data := by
  induction acts with
  | nil => intro c; exact ⟨rfl, rfl⟩
  | cons a l ih =>
    intro c
    cases a <;> exact ih _

theorem work_single (acts : List Action) : ∀ (c : Ctx),
    (acts.foldl (Action.run false) c).mgr.config = c.mgr.config ∧
    (acts.foldl (Action.run false) c).mgr.data = (dataSet c.name acts).foldl putData c.mgr.data := by
  induction acts with
  | nil => intro c; exact ⟨rfl, rfl⟩
  | cons a l ih =>
    intro c
    cases a <;> exact ih _

theorem after_multi (ops : List Op) : ∀ (m : Mgr),
    (ops.foldl (Op.run true) m).config = (allConfig ops).foldl put m.config ∧
    (ops.foldl (Op.run true) m).data = (allData ops).foldl putData m.data := by
  induction ops with
  | nil => intro m; exact ⟨rfl, rfl⟩
  | cons o l ih =>
    intro m
    cases o with
    | config k v => exact ih _
    | data n k v => exact ih _
    | context n acts =>
      have h := work_multi acts (create m n)
      have i := ih (work true m n acts).mgr
      refine ⟨?_, ?_⟩
      · show (l.foldl (Op.run true) (work true m n acts).mgr).config = (configSet acts ++ allConfig l).foldl put m.config
        rw [i.1, List.foldl_append]
        exact congrArg (fun x => List.foldl put x _) h.1
      · show (l.foldl (Op.run true) (work true m n acts).mgr).data = (dataSet n acts ++ allData l).foldl putData m.data
        rw [i.2, List.foldl_append]
        exact congrArg (fun x => List.foldl putData x _) h.2

theorem after_single (ops : List Op) : ∀ (m : Mgr),
    (ops.foldl (Op.run false) m).config = (ownersConfig ops).foldl put m.config ∧
    (ops.foldl (Op.run false) m).data = (allData ops).foldl putData m.data := by
  induction ops with
  | nil => intro m; exact ⟨rfl, rfl⟩
  | cons o l ih =>
    intro m
    cases o with
    | config k v => exact ih _
    | data n k v => exact ih _
    | context n acts =>
      have h := work_single acts (create m n)
      have i := ih (work false m n acts).mgr
      refine ⟨?_, ?_⟩
      · show (l.foldl (Op.run false) (work false m n acts).mgr).config = (ownersConfig l).foldl put m.config
        rw [i.1]
        exact congrArg (fun x => List.foldl put x _) h.1
      · show (l.foldl (Op.run false) (work false m n acts).mgr).data = (dataSet n acts ++ allData l).foldl putData m.data
        rw [i.2, List.foldl_append]
        exact congrArg (fun x => List.foldl putData x _) h.2

/-- **C160.** In builds with several threads, whatever is read of the configuration, by the owner of the manager or by an
extension in the middle of its work, is what was last set for the key, by the owner or by any extension.
Missing: builds with a single thread (`C160_config_violated`, `C160_single_partial`). -/
theorem C160_config_partial (ops : List Op) (name : Str) (acts : List Action) (k : Str) :
    IsLast (allConfig ops) k (getConfig (after true ops) k) ∧
    IsLast (allConfig ops ++ configSet acts) k ((work true (after true ops) name acts).getConfig k) := by
  have h0 := (after_multi ops new).1
  refine ⟨?_, ?_⟩
  · have := last_write (fun m k => Map.get m k) put put_law (allConfig ops) [] k
    unfold getConfig after
    rw [h0]
    exact this
  · have := last_write (fun m k => Map.get m k) put put_law (allConfig ops ++ configSet acts) [] k
    unfold Ctx.getConfig getConfig work
    rw [(work_multi acts (create (after true ops) name)).1]
    show IsLast _ _ (Map.get ((configSet acts).foldl put (after true ops).config) k)
    unfold after
    rw [h0, show new.config = [] from rfl, ← List.foldl_append]
    exact this

/-- **C160, disagreement.** In builds with a single thread an extension that sets a configuration value does not read it
back, though it is told that it was set: it went to a map nobody reads. -/
theorem C160_config_violated :
    ¬ ∀ (ops : List Op) (name : Str) (acts : List Action) (k : Str),
        IsLast (allConfig ops ++ configSet acts) k ((work false (after false ops) name acts).getConfig k) := by
  intro h
  rcases h [] ['e'] [.setConfig ['k'] ['v']] ['k'] with ⟨_, v, _, _, _, h3⟩ | ⟨h1, _⟩
  · rw [show (work false (after false []) ['e'] [.setConfig ['k'] ['v']]).getConfig ['k'] = none from by decide] at h3
    simp at h3
  · exact h1 (['k'], ['v']) (by decide) rfl

/-- **C160.** What they read there is what the owner of the manager set last.
Missing: what extensions set (`C160_config_violated`). -/
theorem C160_single_partial (ops : List Op) (name : Str) (acts : List Action) (k : Str) :
    IsLast (ownersConfig ops) k (getConfig (after false ops) k) ∧
    IsLast (ownersConfig ops) k ((work false (after false ops) name acts).getConfig k) := by
  have h0 := (after_single ops new).1
  have := last_write (fun m k => Map.get m k) put put_law (ownersConfig ops) [] k
  have h1 : IsLast (ownersConfig ops) k (getConfig (after false ops) k) := by
    unfold getConfig after
    rw [h0]
    exact this
  refine ⟨h1, ?_⟩
  unfold Ctx.getConfig getConfig work
  rw [(work_single acts (create (after false ops) name)).1]
  exact h1

/-- **C160.** In all builds, the data read of an extension, by anyone, is what it or the owner of the manager last set for
the key; no other extension changes it. -/
theorem C160_data (multi : Bool) (ops : List Op) (name : Str) (acts : List Action) (n k : Str) :
    IsLast (allData ops) (n, k) (getData (after multi ops) n k) ∧
    IsLast (allData ops ++ dataSet name acts) (n, k) ((work multi (after multi ops) name acts).getData n k) := by
  have h0 : (after multi ops).data = (allData ops).foldl putData [] := by
    cases multi
    · exact (after_single ops new).2
    · exact (after_multi ops new).2
  have hw : (work multi (after multi ops) name acts).mgr.data = (dataSet name acts).foldl putData (after multi ops).data := by
    cases multi
    · exact (work_single acts (create _ name)).2
    · exact (work_multi acts (create _ name)).2
  refine ⟨?_, ?_⟩
  · have := last_write readData putData putData_law (allData ops) [] (n, k)
    show IsLast _ _ (readData (after multi ops).data (n, k))
    rw [h0]
    exact this
  · have := last_write readData putData putData_law (allData ops ++ dataSet name acts) [] (n, k)
    show IsLast _ _ (readData (work multi (after multi ops) name acts).mgr.data (n, k))
    rw [hw, h0, ← List.foldl_append]
    exact this

example : getConfig (after true [.config ['k'] ['1'], .context ['e'] [.setConfig ['k'] ['2'], .setData ['d'] ['3']]]) ['k'] = some ['2'] ∧
    getData (after true [.context ['e'] [.setData ['d'] ['3']], .context ['f'] [.setData ['d'] ['4']]]) ['e'] ['d'] = some ['3'] := by
  decide

theorem work_silent (multi : Bool) (acts : List Action) : ∀ (c : Ctx),
    (acts.foldl (Action.run multi) c).mgr.received = c.mgr.received ∧
    (acts.foldl (Action.run multi) c).mgr.shown = c.mgr.shown ∧
    (acts.foldl (Action.run multi) c).mgr.commands = c.mgr.commands := by
  induction acts with
  | nil => intro c; exact ⟨rfl, rfl, rfl⟩
  | cons a l ih =>
    intro c
    cases multi <;> cases a <;> exact ih _

/-- **C160.** In every build and after every history the receiver of the events, the message handler and the table of
commands have got nothing from any context: contexts take events, messages and commands, report success, and drop them. -/
theorem C160_dropped (multi : Bool) (ops : List Op) :
    (after multi ops).received = [] ∧ (after multi ops).shown = [] ∧ (after multi ops).commands = [] := by
  have key : ∀ (ops : List Op) (m : Mgr), (ops.foldl (Op.run multi) m).received = m.received ∧
      (ops.foldl (Op.run multi) m).shown = m.shown ∧ (ops.foldl (Op.run multi) m).commands = m.commands := by
    intro ops
    induction ops with
    | nil => intro m; exact ⟨rfl, rfl, rfl⟩
    | cons o l ih =>
      intro m
      cases o with
      | config k v => exact ih _
      | data n k v => exact ih _
      | context n acts =>
        have h := work_silent multi acts (create m n)
        have i := ih (work multi m n acts).mgr
        exact ⟨i.1.trans h.1, i.2.1.trans h.2.1, i.2.2.trans h.2.2⟩
  exact key ops new

/-- **C160, disagreement.** An event that an extension sends, with success, does not reach the receiver the manager was
made with. -/
theorem C160_events_violated : ¬ ∀ (multi : Bool) (ops : List Op), (after multi ops).received = eventsSent ops := by
  intro h
  have := h true [.context ['e'] [.sendEvent 7]]
  revert this; decide

/-- **C160, disagreement.** A message that an extension shows, with success, does not reach the message handler the manager
was made with. -/
theorem C160_messages_violated : ¬ ∀ (multi : Bool) (ops : List Op), (after multi ops).shown = messagesShown ops := by
  intro h
  have := h true [.context ['e'] [.showMessage ['m'] .error]]
  revert this; decide

/-- **C160, disagreement.** A command that an extension registers, with success, is not among the commands. -/
theorem C160_register_violated :
    ¬ ∀ (multi : Bool) (ops : List Op) (name id : Str) (acts : List Action), Action.registerCommand id ∈ acts →
        .context name acts ∈ ops → (after multi ops).commands.get id = some name := by
  intro h
  have := h true [.context ['e'] [.registerCommand ['c']]] ['e'] ['c'] [.registerCommand ['c']] (by simp) (by simp)
  revert this; decide

section
open Verif.Extensions Verif.Spec.Ext

/-- **C160, disagreement.** A command is run also by an extension that is no longer active: where shutting down failed, its
commands stay and are given to it. -/
theorem C160_stopped_violated :
    ¬ ∀ (cs : List Call) (c n : Str), execute (Spec.Ext.after cs) c = some n →
        (Spec.Ext.after cs).states.get n = some .active := by
  intro h
  have := h [.load ⟨['a'], [], [['x']], true, false, false, false⟩, .init false ['a'], .unload false ['a']] ['x'] ['a']
    (by decide)
  revert this; decide

/-- The extensions loaded neither fail to shut down nor go back to the manager. -/
def Calm (m : Extensions.Mgr) : Prop := ∀ n e, m.exts.get n = some e → e.shutOk = true ∧
  e.shutUsesManager = false ∧ e.initUsesManager = false

/-- Commands belong to active extensions, which can be initialised. -/
def Active (m : Extensions.Mgr) : Prop := ∀ c n, m.commands.get c = some n →
  m.states.get n = some .active ∧ ∀ e, m.exts.get n = some e → e.initOk = true

theorem run_active {m : Extensions.Mgr} (inv : Inv m) (good : Calm m) (h : Active m) (x : Call)
    (hx : ∀ e, x = .load e → e.shutOk = true ∧ e.shutUsesManager = false ∧ e.initUsesManager = false) :
    Calm (x.run m).2 ∧ Active (x.run m).2 := by
  cases x with
  | load e =>
    simp only [Call.run, load]
    split
    · exact ⟨good, h⟩
    · split
      · exact ⟨good, h⟩
      · next hn =>
        refine ⟨?_, ?_⟩
        · intro n a ha
          simp only [Map.get_insert] at ha
          split at ha
          · injection ha with ha; subst ha; exact hx _ rfl
          · exact good n a ha
        · intro c n hc
          obtain ⟨a, ha, _⟩ := inv.owner c n hc
          have hne : n ≠ e.name := by
            intro he; subst he
            simp [Map.has, ha] at hn
          simp only
          rw [Map.get_insert_ne hne, Map.get_insert_ne hne]
          exact h c n hc
  | init s y =>
    simp only [Call.run, initExt]
    cases hy : m.exts.get y with
    | none =>
      refine ⟨good, ?_⟩
      intro c n hc
      obtain ⟨a, ha, _⟩ := inv.owner c n hc
      have hne : n ≠ y := by
        intro he; subst he
        rw [hy] at ha; simp at ha
      simp only
      rw [Map.get_insert_ne hne]
      exact h c n hc
    | some e =>
      have hu := (good y e hy).2.2
      simp only [hu, Bool.and_false, Bool.false_eq_true, if_false]
      by_cases ho : e.initOk = true
      · rw [if_pos ho]
        refine ⟨good, ?_⟩
        intro c n hc
        simp only [Map.get_insert] at hc ⊢
        rw [get_foldl_insert] at hc
        by_cases hn : n = y
        · subst hn
          refine ⟨by rw [if_pos rfl], ?_⟩
          intro a ha
          rw [hy] at ha; injection ha with ha; rw [← ha]; exact ho
        · rw [if_neg hn, if_neg hn]
          split at hc
          · injection hc with hc; exact absurd hc.symm hn
          · exact h c n hc
      · rw [if_neg ho]
        refine ⟨good, ?_⟩
        intro c n hc
        have hh := h c n hc
        have hn : n ≠ y := by
          intro he; subst he
          exact ho (hh.2 e hy)
        simp only
        rw [Map.get_insert_ne hn, Map.get_insert_ne hn]
        exact hh
  | unload s y =>
    have hok : (unload s m y).1 = .ok := by
      unfold unload shutdown
      cases hy : m.exts.get y with
      | none => rfl
      | some e =>
        obtain ⟨g1, g2, _⟩ := good y e hy
        simp [g1, g2]
    obtain ⟨h1, h2, h3, h4⟩ := unload_ok hok
    refine ⟨?_, ?_⟩
    · intro n e he
      simp only [Call.run, h1, Map.get_erase] at he
      split at he
      · simp at he
      · exact good n e he
    · intro c n hc
      simp only [Call.run, h2] at hc
      rw [get_filter_val inv.wfc (fun z => decide (z ≠ y)) c, Option.filter_eq_some_iff] at hc
      have hn : n ≠ y := by simpa using hc.2
      simp only [Call.run, h1, h4, if_neg hn, Map.get_erase]
      exact h c n hc.1
  | setData a b c => exact ⟨good, h⟩

/-- **C160.** Where no extension fails to shut down, and none goes back to the manager while it is initialised or shut
down, commands are only run by active extensions, after every history.
Missing: extensions failing to shut down (`C160_stopped_violated`), and those whose initialising succeeds at one time and
fails at another, which the model does not have. -/
theorem C160_active_partial (cs : List Call)
    (hc : ∀ e, .load e ∈ cs → e.shutOk = true ∧ e.shutUsesManager = false ∧ e.initUsesManager = false)
    (c n : Str) (h : execute (Spec.Ext.after cs) c = some n) :
    (Spec.Ext.after cs).states.get n = some .active := by
  have key : ∀ (cs : List Call) (m : Extensions.Mgr), Inv m → Calm m → Active m →
      (∀ e, .load e ∈ cs → e.shutOk = true ∧ e.shutUsesManager = false ∧ e.initUsesManager = false) →
      Active (cs.foldl (fun m c => (c.run m).2) m) := by
    intro cs
    induction cs with
    | nil => intro m _ _ h _; exact h
    | cons x l ih =>
      intro m i g a hl
      have := run_active i g a x (fun e he => hl e (by rw [he]; simp))
      exact ih _ (inv_run i x) this.1 this.2 (fun e he => hl e (List.mem_cons_of_mem _ he))
  have a := key cs Extensions.new inv_new (by intro n e he; simp [Extensions.new] at he) (by intro c n he; simp [Extensions.new] at he) hc
  unfold execute at h
  split at h
  · simp at h
  · next name hg =>
    split at h
    · injection h with h
      subst h
      exact (a c name hg).1
    · simp at h

example : execute (Spec.Ext.after [.load ⟨['a'], [], [['x']], true, false, true, false⟩, .init false ['a']]) ['x'] = some ['a'] := by
  decide

end

end Verif.Props.ExtContext
