import Verif.Spec.Sessions
import Verif.Lemmas.Map
namespace Verif.Sessions
open Verif Verif.Spec.Sess

variable {D : Type}

/-- Invariant of reachable managers. -/
structure Inv (m : Mgr D) : Prop where
  wf : Map.WF m.sessions
  limit : m.sessions.length ≤ m.maxSessions
  active : ∀ id, m.active = some id → (m.sessions.get id).isSome
  count : m.sessions.length ≤ m.activeCount

theorem inv_new (n : Nat) (b : Bool) : Inv (new n b : Mgr D) :=
  ⟨Map.wf_nil, Nat.zero_le _, by simp [new], Nat.zero_le _⟩

theorem inv_create {m : Mgr D} (h : Inv m) (id : Str) (doc : D) : Inv (create m id doc).2 := by
  unfold create
  split
  · exact h
  · next hlt =>
    have hl := Map.length_insert_le m.sessions id (doc, 0)
    refine ⟨Map.wf_insert h.wf _ _, ?_, ?_, ?_⟩
    · simp only; omega
    · intro i hi
      simp only at hi ⊢
      rw [Map.get_insert]
      split
      · rfl
      · next hne =>
        split at hi
        · injection hi with hi; exact absurd hi.symm hne
        · exact h.active i hi
    · have := h.count; simp only; omega

theorem inv_switch {m : Mgr D} (h : Inv m) (id : Str) : Inv (switch m id).2 := by
  unfold switch
  split
  · next hs =>
    refine ⟨h.wf, h.limit, ?_, h.count⟩
    intro i hi
    simp only [Option.some.injEq] at hi
    subst hi
    exact hs
  · exact h

theorem inv_remove {m : Mgr D} (h : Inv m) (id : Str) : Inv (remove m id).2 := by
  unfold remove
  split
  · exact h
  · next s hs =>
    have hl := Map.length_erase_of_some h.wf hs
    have := h.limit
    have := h.count
    refine ⟨Map.wf_erase h.wf _, ?_, ?_, ?_⟩
    · simp only; omega
    · intro i hi
      simp only at hi ⊢
      split at hi
      · simp at hi
      · next hne =>
        rw [Map.get_erase_ne (fun e => hne (by rw [hi, e]))]
        exact h.active i hi
    · simp only; omega

theorem inv_modify {m : Mgr D} (h : Inv m) (id : Str) (f : D → Bool × D) : Inv (modify m id f).2 := by
  unfold modify
  split
  · exact h
  · next d n hs =>
    have hl := fun v => Map.length_insert_of_some (v := v) h.wf hs
    refine ⟨Map.wf_insert h.wf _ _, ?_, ?_, ?_⟩
    · simp only [hl]; exact h.limit
    · intro i hi
      simp only at hi ⊢
      rw [Map.get_insert]
      split
      · rfl
      · exact h.active i hi
    · simp only [hl]; exact h.count

theorem inv_cleanup {m : Mgr D} (h : Inv m) (stale : Str → Bool) : Inv (cleanup m stale) := by
  unfold cleanup
  split
  · next hauto =>
    clear hauto
    generalize ((m.sessions.filter (fun p => stale p.1)).map (·.1)) = l
    induction l generalizing m with
    | nil => exact h
    | cons a l ih => exact ih (inv_remove h a)
  · exact h

theorem inv_run {m : Mgr D} (h : Inv m) (c : Call D) : Inv (c.run m) := by
  cases c with
  | create id doc => exact inv_create h id doc
  | switch id => exact inv_switch h id
  | remove id => exact inv_remove h id
  | modify id f => exact inv_modify h id f
  | cleanup stale => exact inv_cleanup h stale

theorem inv_after (n : Nat) (b : Bool) (cs : List (Call D)) : Inv (after n b cs) := by
  unfold after
  have key : ∀ (cs : List (Call D)) (m : Mgr D), Inv m → Inv (cs.foldl Call.run m) := by
    intro cs
    induction cs with
    | nil => intro m h; exact h
    | cons c cs ih => intro m h; exact ih _ (inv_run h c)
  exact key cs _ (inv_new n b)

theorem remove_get {m : Mgr D} {i id : Str} (h : i ≠ id) :
    (remove m i).2.sessions.get id = m.sessions.get id := by
  unfold remove
  split
  · rfl
  · exact Map.get_erase_ne (fun e => h e.symm)

theorem cleanup_get {m : Mgr D} {stale : Str → Bool} {id : Str} (h : stale id = false) :
    (cleanup m stale).sessions.get id = m.sessions.get id := by
  unfold cleanup
  split
  · next hauto =>
    clear hauto
    have hl : id ∉ (m.sessions.filter (fun p => stale p.1)).map (·.1) := by
      simp only [List.mem_map, List.mem_filter, not_exists, not_and]
      rintro ⟨a, b⟩ ⟨_, hs⟩ rfl
      simp [h] at hs
    generalize (m.sessions.filter (fun p => stale p.1)).map (·.1) = l at hl
    induction l generalizing m with
    | nil => rfl
    | cons a l ih =>
      simp only [List.mem_cons, not_or] at hl
      simp only [List.foldl_cons]
      rw [ih hl.2, remove_get (fun e => hl.1 e.symm)]
  · rfl

end Verif.Sessions
