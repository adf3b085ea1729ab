import Verif.Lemmas.Extensions
/-!
# C20, C55, C56, C57 — extension manager
-/
namespace Verif.Props
open Verif Verif.Extensions Verif.Spec.Ext

/-- **C20.** After any history, every registered command belongs to a loaded extension, which
declares it. -/
theorem C20_commands_owned (cs : List Call) (c n : Str) (h : Registered (after cs) c n) :
    Loaded (after cs) n ∧ ∃ e, (after cs).exts.get n = some e ∧ c ∈ e.commands := by
  obtain ⟨e, he, hc⟩ := (inv_after cs).owner c n h
  exact ⟨by simp [Loaded, he], e, he, hc⟩

/-- **C20.** Executing a registered command never ends in "extension not found". -/
theorem C20_execute_finds_owner (cs : List Call) (c n : Str) (h : Registered (after cs) c n) :
    execute (after cs) c = some n := by
  have := (C20_commands_owned cs c n h).1
  unfold Registered at h
  unfold Loaded at this
  simp [execute, h, Map.has, this]

/-- **C20.** A successful unload removes the extension, its state, all its commands and its data, and
leaves every other extension's commands and data in place. -/
theorem C20_unload_removes (cs : List Call) (s : Bool) (n : Str)
    (h : (unload s (after cs) n).1 = .ok) :
    let m := after cs
    let m' := (unload s m n).2
    ¬ Loaded m' n ∧ m'.states.get n = none ∧ (∀ c, ¬ Registered m' c n) ∧ (∀ k, getData m' n k = none) ∧
    ∀ x, x ≠ n → (m'.exts.get x = m.exts.get x) ∧ (∀ c, Registered m' c x ↔ Registered m c x) ∧
      (∀ k, getData m' x k = getData m x k) := by
  intro m m'
  obtain ⟨h1, h2, h3, h4⟩ := unload_ok h
  have hcmd : ∀ c, m'.commands.get c = (m.commands.get c).filter (fun x => x ≠ n) := by
    intro c
    show (unload s (after cs) n).2.commands.get c = _
    rw [h2]
    exact get_filter_val (inv_after cs).wfc (fun x => decide (x ≠ n)) c
  refine ⟨?_, ?_, ?_, ?_, ?_⟩
  · show ¬ ((unload s (after cs) n).2.exts.get n).isSome
    rw [h1]; simp
  · show (unload s (after cs) n).2.states.get n = none
    rw [h4]; simp
  · intro c hc
    unfold Registered at hc
    rw [hcmd, Option.filter_eq_some_iff] at hc
    simp at hc
  · intro k
    show ((unload s (after cs) n).2.data.get n).bind _ = none
    rw [h3]; simp
  · intro x hx
    refine ⟨?_, ?_, ?_⟩
    · show (unload s (after cs) n).2.exts.get x = _
      rw [h1, Map.get_erase_ne hx]
    · intro c
      unfold Registered
      rw [hcmd, Option.filter_eq_some_iff]
      simp [hx]
    · intro k
      show ((unload s (after cs) n).2.data.get x).bind _ = _
      rw [h3, Map.get_erase_ne hx]; rfl

/-- **C20.** Storing a value changes exactly that key of that extension. -/
theorem C20_data (m : Mgr) (n k v n' k' : Str) :
    getData (setData m n k v) n' k' = if n' = n ∧ k' = k then some v else getData m n' k' := by
  unfold getData setData
  simp only
  by_cases hn : n' = n
  · subst hn
    rw [Map.get_insert_self, Option.bind_some]
    by_cases hk : k' = k
    · subst hk; simp
    · rw [Map.get_insert_ne hk, if_neg (by simp [hk])]
      cases m.data.get n' <;> simp
  · rw [Map.get_insert_ne hn, if_neg (by simp [hn])]

example : getData (setData (setData Extensions.new ['a'] ['k'] ['1']) ['a'] ['l'] ['2']) ['a'] ['k'] = some ['1'] := by
  decide

/-- Sample extension used in the witnesses below. -/
def ext (name : Str) (deps commands : List Str) : Ext := ⟨name, deps, commands, true, false, true, false⟩

example : (after [.load (ext ['a'] [] [['x']]), .init false ['a'], .load (ext ['b'] [['a']] [['y']]),
    .init false ['b'], .setData ['a'] ['k'] ['v'], .unload false ['a']]).commands = [(['y'], ['b'])] := by
  decide

/-- **C55, disagreement.** A loaded extension's dependencies need not be loaded: initialising a name
that does not exist leaves a state entry behind, which then satisfies the dependency check (and
unloading never looks at dependants). -/
theorem C55_dependencies_violated :
    ¬ ∀ (cs : List Call) (n : Str) (e : Ext), (after cs).exts.get n = some e →
        ∀ d ∈ e.deps, Loaded (after cs) d := by
  intro h
  have := h [.init false ['g'], .load (ext ['b'] [['g']] [])] ['b'] (ext ['b'] [['g']] [])
    (by decide) ['g'] (by simp [ext])
  revert this; unfold Loaded; decide

/-- **C55, disagreement.** Even without ghost entries: unloading a dependency is not refused. -/
theorem C55_unload_dependency_violated :
    ¬ ∀ (cs : List Call) (n : Str) (e : Ext),
        (∀ s x, .init s x ∉ cs) → (after cs).exts.get n = some e →
        ∀ d ∈ e.deps, Loaded (after cs) d := by
  intro h
  have := h [.load (ext ['a'] [] []), .load (ext ['b'] [['a']] []), .unload false ['a']]
    ['b'] (ext ['b'] [['a']] []) (by simp) (by decide) ['a'] (by simp [ext])
  revert this; unfold Loaded; decide

/-- Every state entry belongs to a loaded extension. -/
def NoGhosts (m : Mgr) : Prop := ∀ k, (m.states.get k).isSome → Loaded m k

/-- **C55.** When every initialise and unload call names an extension that is loaded at that moment
and no unload is made, every loaded extension's dependencies are loaded.
Missing: histories with unloading, or with initialising what is not loaded (`C55_dependencies_violated`,
`C55_unload_dependency_violated`). -/
theorem C55_dependencies_partial (cs : List Call)
    (hu : ∀ s x, .unload s x ∉ cs)
    (hi : ∀ pre s x post, cs = pre ++ .init s x :: post → Loaded (after pre) x)
    (n : Str) (e : Ext) (h : (after cs).exts.get n = some e) :
    ∀ d ∈ e.deps, Loaded (after cs) d := by
  let Good (m : Mgr) : Prop := NoGhosts m ∧ ∀ n e, m.exts.get n = some e → ∀ d ∈ e.deps, Loaded m d
  have step : ∀ (m : Mgr) (c : Call), Good m → (∀ s x, c ≠ .unload s x) →
      (∀ s x, c = .init s x → Loaded m x) → Good (c.run m).2 := by
    intro m c hg hnu hin
    cases c with
    | load e =>
      simp only [Call.run, load]
      split
      · exact hg
      · next hd =>
        split
        · exact hg
        · have mono : ∀ k, Loaded m k → ((m.exts.insert e.name e).get k).isSome :=
            fun k hk => insert_isSome _ _ _ _ hk
          refine ⟨?_, ?_⟩
          · intro k hk
            simp only [Map.get_insert] at hk
            show ((m.exts.insert e.name e).get k).isSome
            by_cases hke : k = e.name
            · subst hke; simp
            · rw [if_neg hke] at hk; exact mono k (hg.1 k hk)
          · intro k x hx d hdx
            show ((m.exts.insert e.name e).get d).isSome
            simp only [Map.get_insert] at hx
            split at hx
            · injection hx with hx; subst hx
              have : m.states.has d = true := by
                have : e.deps.all (fun d => m.states.has d) = true := by simpa using hd
                exact List.all_eq_true.1 this d hdx
              exact mono d (hg.1 d this)
            · exact mono d (hg.2 k x hx d hdx)
    | init s x =>
      have hl := hin s x rfl
      have hex : ∀ st cm, Good { m with states := st, commands := cm } ↔
          ((∀ k, (st.get k).isSome → Loaded m k) ∧ ∀ n e, m.exts.get n = some e → ∀ d ∈ e.deps, Loaded m d) :=
        fun st cm => Iff.rfl
      have ins : ∀ (st : Map Str St) v, (∀ k, (st.get k).isSome → Loaded m k) →
          ∀ k, ((st.insert x v).get k).isSome → Loaded m k := by
        intro st v hst k hk
        rw [Map.get_insert] at hk
        by_cases hkx : k = x
        · subst hkx; exact hl
        · rw [if_neg hkx] at hk; exact hst k hk
      simp only [Call.run, initExt]
      cases hg' : m.exts.get x with
      | none => simp [Loaded, hg'] at hl
      | some e =>
        simp only
        split
        · exact (hex _ _).2 ⟨ins _ _ hg.1, hg.2⟩
        · split
          · exact (hex _ _).2 ⟨ins _ _ (ins _ _ hg.1), hg.2⟩
          · exact (hex _ _).2 ⟨ins _ _ (ins _ _ hg.1), hg.2⟩
    | unload s x => exact absurd rfl (hnu s x)
    | setData n k v => exact hg
  have key : ∀ (cs pre : List Call), Good (after pre) →
      (∀ s x, .unload s x ∉ cs) →
      (∀ p s x post, pre ++ cs = p ++ .init s x :: post → Loaded (after p) x) → Good (after (pre ++ cs)) := by
    intro cs
    induction cs with
    | nil => intro pre hg _ _; simpa using hg
    | cons c cs ih =>
      intro pre hg hu hi
      have := ih (pre ++ [c]) ?_ (fun s x hm => hu s x (by simp [hm])) ?_
      · simpa using this
      · have : after (pre ++ [c]) = (c.run (after pre)).2 := by simp [after, List.foldl_append]
        rw [this]
        apply step _ _ hg
        · intro s x hc; exact hu s x (by simp [hc])
        · intro s x hc; exact hi pre s x cs (by rw [hc])
      · intro p s x post hp; exact hi p s x post (by rw [← hp]; simp)
  have hnew : Good (after []) := by
    constructor
    · intro k hk; simp [after, Extensions.new] at hk
    · intro n e he; simp [after, Extensions.new] at he
  have := key cs [] hnew hu (by simpa using hi)
  exact this.2 n e h

example : Loaded (after [.load (ext ['a'] [] []), .init false ['a'], .load (ext ['b'] [['a']] [])]) ['a'] := by
  unfold Loaded; decide

/-- **C56, disagreement.** The commands of an active extension can disappear while it stays loaded:
another extension registering the same command id takes it over, and unloading that one removes it. -/
theorem C56_commands_stay_violated :
    ¬ ∀ (cs : List Call) (n : Str) (e : Ext), (after cs).exts.get n = some e →
        (after cs).states.get n = some .active → ∀ c ∈ e.commands, execute (after cs) c = some n := by
  intro h
  have := h [.load (ext ['a'] [] [['x']]), .init false ['a'], .load (ext ['b'] [] [['x']]),
    .init false ['b'], .unload false ['b']] ['a'] (ext ['a'] [] [['x']]) (by decide) (by decide)
    ['x'] (by simp [ext])
  revert this; decide

/-- **C56.** When no two extensions ever loaded share a command id, the commands of every active
extension can be executed.
Missing: extensions that share a command id (`C56_commands_stay_violated`). -/
theorem C56_commands_stay_partial (cs : List Call)
    (hd : ∀ a b, .load a ∈ cs → .load b ∈ cs → a.name ≠ b.name → ∀ c ∈ a.commands, c ∉ b.commands)
    (n : Str) (e : Ext) (h : (after cs).exts.get n = some e)
    (ha : (after cs).states.get n = some .active) :
    ∀ c ∈ e.commands, execute (after cs) c = some n := by
  let Good (m : Mgr) : Prop := Inv m ∧ (∀ n e, m.exts.get n = some e → .load e ∈ cs) ∧
    ∀ n e, m.exts.get n = some e → m.states.get n = some .active → ∀ c ∈ e.commands, m.commands.get c = some n
  have step : ∀ (m : Mgr) (c : Call), c ∈ cs → Good m → Good (c.run m).2 := by
    intro m c hmem ⟨hg1, hg2, hg3⟩
    refine ⟨inv_run hg1 c, ?_, ?_⟩
    · cases c with
      | load e =>
        simp only [Call.run, load]
        split
        · exact hg2
        · split
          · exact hg2
          · intro k x hx
            simp only [Map.get_insert] at hx
            split at hx
            · injection hx with hx; subst hx; exact hmem
            · exact hg2 k x hx
      | init s x =>
        have : (initExt s m x).2.exts = m.exts := by
          unfold initExt
          cases m.exts.get x with
          | none => rfl
          | some e => simp only; split; · rfl
                      · split <;> rfl
        simp only [Call.run, this]; exact hg2
      | unload s x =>
        intro k e hk
        by_cases hok : (unload s m x).1 = .ok
        · simp only [Call.run, (unload_ok hok).1, Map.get_erase] at hk
          split at hk
          · simp at hk
          · exact hg2 k e hk
        · simp only [Call.run, unload_not_ok hok, (shutdown_keeps s m x).1] at hk
          exact hg2 k e hk
      | setData a b c => exact hg2
    · cases c with
      | load e =>
        simp only [Call.run, load]
        split
        · exact hg3
        · split
          · exact hg3
          · intro k x hx hst
            simp only [Map.get_insert] at hx hst
            split at hx
            · next hk => simp [hk] at hst
            · next hk => rw [if_neg hk] at hst; exact hg3 k x hx hst
      | init s x =>
        simp only [Call.run, initExt]
        cases hx : m.exts.get x with
        | none =>
          intro k e hk hst
          simp only [Map.get_insert] at hst
          split at hst
          · simp at hst
          · exact hg3 k e hk hst
        | some ex =>
          simp only
          split
          · intro k e hk hst
            simp only [Map.get_insert] at hst
            split at hst
            · simp at hst
            · exact hg3 k e hk hst
          · split
            · intro k e hk hst c hc
              simp only [Map.get_insert] at hk hst
              rw [get_foldl_insert]
              by_cases hkx : k = x
              · subst hkx
                rw [hx] at hk; injection hk with hk; subst hk
                simp [hc]
              · rw [if_neg hkx, if_neg hkx] at hst
                have hne : c ∉ ex.commands := by
                  refine hd e ex (hg2 k e hk) (hg2 x ex hx) ?_ c hc
                  rw [hg1.named k e hk, hg1.named x ex hx]; exact hkx
                rw [if_neg hne]
                exact hg3 k e hk hst c hc
            · intro k e hk hst
              simp only [Map.get_insert] at hst
              by_cases hkx : k = x
              · simp [hkx] at hst
              · rw [if_neg hkx, if_neg hkx] at hst; exact hg3 k e hk hst
      | unload s x =>
        intro k e hk hst
        by_cases hok : (unload s m x).1 = .ok
        · obtain ⟨h1, h2, h3, h4⟩ := unload_ok hok
          simp only [Call.run, h1, Map.get_erase] at hk
          simp only [Call.run, h4] at hst
          split at hk
          · simp at hk
          · next hne =>
            rw [if_neg hne] at hst
            intro c hc
            simp only [Call.run, h2]
            rw [get_filter_val hg1.wfc (fun y => decide (y ≠ x)) c, hg3 k e hk hst c hc]
            simp [hne]
        · simp only [Call.run, unload_not_ok hok] at hk hst ⊢
          obtain ⟨h1, h2, h3, h4⟩ := shutdown_keeps s m x
          rw [h1] at hk
          rw [h2]
          by_cases hkx : k = x
          · exfalso
            subst hkx
            unfold shutdown at hst
            rw [hk] at hst
            simp only at hst
            split at hst
            · simp at hst
            · split at hst <;> simp at hst
          · rw [h4 k hkx] at hst; exact hg3 k e hk hst
      | setData a b c => exact hg3
  have key : ∀ (l : List Call) (m : Mgr), (∀ c ∈ l, c ∈ cs) → Good m →
      Good (l.foldl (fun m c => (c.run m).2) m) := by
    intro l
    induction l with
    | nil => intro m _ h; exact h
    | cons c l ih => intro m hl h; exact ih _ (fun x hx => hl x (by simp [hx])) (step m c (hl c (by simp)) h)
  have hg := key cs Extensions.new (fun _ h => h)
    ⟨inv_new, by simp [Extensions.new], by simp [Extensions.new]⟩
  intro c hc
  exact C20_execute_finds_owner cs c n (hg.2.2 n e h ha c hc)

example : execute (after [.load (ext ['a'] [] [['x']]), .init false ['a'], .load (ext ['b'] [] [['y']]),
    .init false ['b'], .unload false ['b']]) ['x'] = some ['a'] := by decide

/-- **C57, disagreement.** Initialising an extension with a context on the same manager need not
return: if the extension reads a setting through its context — as both built-in extensions do — it
waits for the lock its caller holds. -/
theorem C57_init_returns_violated :
    ¬ ∀ (cs : List Call) (n : Str), (initExt true (after cs) n).1 ≠ .hang := by
  intro h
  exact h [.load ⟨['a'], [], [], true, true, true, false⟩] ['a'] (by decide)

/-- **C57.** Initialisation and unloading return whenever the callbacks keep away from the manager,
or the context works on another manager.
Missing: callbacks that use the manager they are called from, which hang (`C57_init_returns_violated`). -/
theorem C57_init_returns_partial (m : Mgr) (shared : Bool) (n : Str)
    (h : shared = false ∨ ∀ e, m.exts.get n = some e → e.initUsesManager = false ∧ e.shutUsesManager = false) :
    (initExt shared m n).1 ≠ .hang ∧ (unload shared m n).1 ≠ .hang := by
  have hs : (shutdown shared m n).1 ≠ .hang := by
    unfold shutdown
    cases hg : m.exts.get n with
    | none => simp
    | some e =>
      simp only
      split
      · next hh =>
        rcases h with h | h
        · simp [h] at hh
        · simp [(h e hg).2] at hh
      · split <;> simp
  constructor
  · unfold initExt
    cases hg : m.exts.get n with
    | none => simp
    | some e =>
      simp only
      split
      · next hh =>
        rcases h with h | h
        · simp [h] at hh
        · simp [(h e hg).1] at hh
      · split <;> simp
  · unfold unload
    cases he : shutdown shared m n with
    | mk r m1 =>
      rw [he] at hs
      cases r with
      | ok => simp
      | err => simp
      | hang => exact absurd rfl hs

example : (initExt true (after [.load (ext ['a'] [] [['x']])]) ['a']).1 = .ok := by decide

end Verif.Props
