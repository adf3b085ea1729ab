import Verif.Spec.Extensions
import Verif.Lemmas.Map
namespace Verif.Extensions
open Verif Verif.Spec.Ext

theorem get_foldl_insert (l : List Str) (n : Str) : ∀ (m : Map Str Str) (c : Str),
    Map.get (l.foldl (fun cs c => cs.insert c n) m) c = if c ∈ l then some n else m.get c := by
  induction l with
  | nil => intro m c; simp
  | cons a l ih =>
    intro m c
    rw [List.foldl_cons, ih, Map.get_insert]
    by_cases h : c ∈ l
    · simp [h]
    · by_cases e : c = a <;> simp [h, e]

theorem wf_foldl_insert (l : List Str) (n : Str) : ∀ {m : Map Str Str}, Map.WF m →
    Map.WF (l.foldl (fun cs c => cs.insert c n) m) := by
  induction l with
  | nil => intro m h; exact h
  | cons a l ih => intro m h; exact ih (Map.wf_insert h _ _)

/-- Looking up in a map filtered by value. -/
theorem get_filter_val {K V : Type} [DecidableEq K] {m : Map K V} (hw : Map.WF m) (q : V → Bool) (k : K) :
    Map.get (m.filter (fun p => q p.2)) k = (m.get k).filter q := by
  cases h : m.get k with
  | none =>
    rw [Map.get_eq_none] at h
    simp only [Option.filter_none]
    rw [Map.get_eq_none]
    intro v hv
    exact h v ((List.mem_filter.1 hv).1)
  | some v =>
    by_cases hq : q v
    · simp only [Option.filter_some, hq, if_true]
      apply Map.get_of_mem (Map.wf_filter hw _)
      exact List.mem_filter.2 ⟨Map.mem_of_get h, hq⟩
    · simp only [Option.filter_some, hq]
      rw [if_neg (by simp), Map.get_eq_none]
      intro w hw'
      obtain ⟨h1, h2⟩ := List.mem_filter.1 hw'
      have := Map.get_of_mem hw h1
      rw [h] at this
      injection this with this
      subst this
      exact hq h2

theorem shutdown_keeps (s : Bool) (m : Mgr) (n : Str) :
    (shutdown s m n).2.exts = m.exts ∧ (shutdown s m n).2.commands = m.commands ∧
    (shutdown s m n).2.data = m.data ∧
    ∀ k, k ≠ n → (shutdown s m n).2.states.get k = m.states.get k := by
  unfold shutdown
  cases m.exts.get n with
  | none => exact ⟨rfl, rfl, rfl, fun k h => Map.get_insert_ne h⟩
  | some e =>
    simp only
    split
    · exact ⟨rfl, rfl, rfl, fun k h => Map.get_insert_ne h⟩
    · split
      · refine ⟨rfl, rfl, rfl, fun k h => ?_⟩
        simp only [Map.get_insert_ne h]
      · exact ⟨rfl, rfl, rfl, fun k h => Map.get_insert_ne h⟩

theorem unload_ok {s : Bool} {m : Mgr} {n : Str} (h : (unload s m n).1 = .ok) :
    (unload s m n).2.exts = m.exts.erase n ∧
    (unload s m n).2.commands = m.commands.filter (fun p => p.2 ≠ n) ∧
    (unload s m n).2.data = m.data.erase n ∧
    ∀ k, (unload s m n).2.states.get k = if k = n then none else m.states.get k := by
  have hk := shutdown_keeps s m n
  unfold unload at h ⊢
  cases hs : shutdown s m n with
  | mk r m1 =>
    rw [hs] at hk
    simp only [hs] at h ⊢
    cases r with
    | ok =>
      simp only at hk ⊢
      refine ⟨by rw [hk.1], by rw [hk.2.1], by rw [hk.2.2.1], ?_⟩
      intro k
      rw [Map.get_erase]
      split
      · rfl
      · next hne => exact hk.2.2.2 k hne
    | err => simp at h
    | hang => simp at h

theorem unload_not_ok {s : Bool} {m : Mgr} {n : Str} (h : (unload s m n).1 ≠ .ok) :
    (unload s m n).2 = (shutdown s m n).2 := by
  unfold unload at h ⊢
  cases hs : shutdown s m n with
  | mk r m1 =>
    simp only [hs] at h ⊢
    cases r with
    | ok => simp at h
    | err => rfl
    | hang => rfl

/-- Invariant of reachable managers. -/
structure Inv (m : Mgr) : Prop where
  wfc : Map.WF m.commands
  owner : ∀ c n, m.commands.get c = some n → ∃ e, m.exts.get n = some e ∧ c ∈ e.commands
  named : ∀ n e, m.exts.get n = some e → e.name = n
  state : ∀ n e, m.exts.get n = some e → (m.states.get n).isSome

theorem inv_new : Inv new :=
  ⟨Map.wf_nil, by simp [new], by simp [new], by simp [new]⟩

theorem inv_load {m : Mgr} (h : Inv m) (e : Ext) : Inv (load m e).2 := by
  unfold load
  split
  · exact h
  · split
    · exact h
    · next hn =>
      have hn : m.exts.get e.name = none := by
        cases hg : m.exts.get e.name with
        | none => rfl
        | some x => simp [Map.has, hg] at hn
      refine ⟨h.wfc, ?_, ?_, ?_⟩
      · intro c n hc
        obtain ⟨x, hx, hxc⟩ := h.owner c n hc
        refine ⟨x, ?_, hxc⟩
        simp only
        rw [Map.get_insert_ne (fun e' => by rw [e', hn] at hx; simp at hx)]
        exact hx
      · intro n x hx
        simp only [Map.get_insert] at hx
        split at hx
        · next he => injection hx with hx; rw [← hx, he]
        · exact h.named n x hx
      · intro n x hx
        simp only [Map.get_insert] at hx ⊢
        split
        · rfl
        · next he => rw [if_neg he] at hx; exact h.state n x hx

theorem inv_states {m : Mgr} (h : Inv m) (st : Map Str St)
    (hst : ∀ k, (m.states.get k).isSome → (st.get k).isSome) : Inv { m with states := st } :=
  ⟨h.wfc, h.owner, h.named, fun n e he => hst n (h.state n e he)⟩

theorem insert_isSome {V : Type} (m : Map Str V) (k : Str) (v : V) (k' : Str) (h : (m.get k').isSome) :
    ((m.insert k v).get k').isSome := by
  rw [Map.get_insert]; split
  · rfl
  · exact h

theorem inv_init {m : Mgr} (h : Inv m) (s : Bool) (n : Str) : Inv (initExt s m n).2 := by
  unfold initExt
  cases hg : m.exts.get n with
  | none => exact inv_states h _ (fun k hk => insert_isSome _ _ _ _ hk)
  | some e =>
    simp only
    split
    · exact inv_states h _ (fun k hk => insert_isSome _ _ _ _ hk)
    · split
      · refine ⟨wf_foldl_insert _ _ h.wfc, ?_, h.named, ?_⟩
        · intro c x hc
          simp only [get_foldl_insert] at hc
          split at hc
          · next hm => injection hc with hc; subst hc; exact ⟨e, hg, hm⟩
          · exact h.owner c x hc
        · intro k x hx
          exact insert_isSome _ _ _ _ (insert_isSome _ _ _ _ (h.state k x hx))
      · exact inv_states h _ (fun k hk => insert_isSome _ _ _ _ (insert_isSome _ _ _ _ hk))

theorem inv_shutdown {m : Mgr} (h : Inv m) (s : Bool) (n : Str) : Inv (shutdown s m n).2 := by
  unfold shutdown
  cases hg : m.exts.get n with
  | none => exact inv_states h _ (fun k hk => insert_isSome _ _ _ _ hk)
  | some e =>
    simp only
    split
    · exact inv_states h _ (fun k hk => insert_isSome _ _ _ _ hk)
    · split
      · exact inv_states h _ (fun k hk => insert_isSome _ _ _ _ (insert_isSome _ _ _ _ hk))
      · exact inv_states h _ (fun k hk => insert_isSome _ _ _ _ hk)

theorem inv_unload {m : Mgr} (h : Inv m) (s : Bool) (n : Str) : Inv (unload s m n).2 := by
  by_cases hok : (unload s m n).1 = .ok
  · obtain ⟨h1, h2, h3, h4⟩ := unload_ok hok
    have hcmd : ∀ c, (unload s m n).2.commands.get c = (m.commands.get c).filter (fun x => x ≠ n) := by
      intro c; rw [h2]; exact get_filter_val h.wfc (fun x => decide (x ≠ n)) c
    refine ⟨by rw [h2]; exact Map.wf_filter h.wfc _, ?_, ?_, ?_⟩
    · intro c x hc
      rw [hcmd, Option.filter_eq_some_iff] at hc
      obtain ⟨hc1, hc2⟩ := hc
      obtain ⟨e, he, hec⟩ := h.owner c x hc1
      refine ⟨e, ?_, hec⟩
      rw [h1, Map.get_erase_ne (by simpa using hc2)]
      exact he
    · intro k e hk
      rw [h1, Map.get_erase] at hk
      split at hk
      · simp at hk
      · exact h.named k e hk
    · intro k e hk
      rw [h1, Map.get_erase] at hk
      split at hk
      · simp at hk
      · next hne => rw [h4, if_neg hne]; exact h.state k e hk
  · rw [unload_not_ok hok]; exact inv_shutdown h s n

theorem inv_run {m : Mgr} (h : Inv m) (c : Call) : Inv (c.run m).2 := by
  cases c with
  | load e => exact inv_load h e
  | init s n => exact inv_init h s n
  | unload s n => exact inv_unload h s n
  | setData n k v => exact ⟨h.wfc, h.owner, h.named, h.state⟩

theorem inv_after (cs : List Call) : Inv (after cs) := by
  unfold after
  have key : ∀ (cs : List Call) (m : Mgr), Inv m → Inv (cs.foldl (fun m c => (c.run m).2) m) := by
    intro cs
    induction cs with
    | nil => intro m h; exact h
    | cons c cs ih => intro m h; exact ih _ (inv_run h c)
  exact key cs _ inv_new

end Verif.Extensions
