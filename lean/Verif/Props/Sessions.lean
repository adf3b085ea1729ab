import Verif.Lemmas.Sessions
/-!
# C18, C54 — session manager
-/
namespace Verif.Props
open Verif Verif.Sessions Verif.Spec.Sess

variable {D : Type}

/-- **C18.** After any sequence of calls the number of sessions is within the limit. -/
theorem C18_session_limit (n : Nat) (auto : Bool) (cs : List (Call D)) :
    (after n auto cs).sessions.length ≤ (after n auto cs).maxSessions := (inv_after n auto cs).limit

/-- **C18.** After any sequence of calls the active session, if any, exists. -/
theorem C18_active_exists (n : Nat) (auto : Bool) (cs : List (Call D)) (id : Str)
    (h : (after n auto cs).active = some id) : ∃ d, docOf (after n auto cs) id = some d := by
  have := (inv_after n auto cs).active id h
  rw [Option.isSome_iff_exists] at this
  obtain ⟨⟨d, k⟩, hd⟩ := this
  exact ⟨d, by simp [docOf, hd]⟩

/-- **C18.** The limit itself never changes. -/
theorem C18_limit_fixed (n : Nat) (auto : Bool) (cs : List (Call D)) :
    (after n auto cs).maxSessions = n := by
  have hrem : ∀ (m : Mgr D) id, (remove m id).2.maxSessions = m.maxSessions := by
    intro m id; unfold remove; split <;> rfl
  have hfold : ∀ (l : List Str) (m : Mgr D),
      (l.foldl (fun m id => (remove m id).2) m).maxSessions = m.maxSessions := by
    intro l
    induction l with
    | nil => intro m; rfl
    | cons a l ih => intro m; simp only [List.foldl_cons]; rw [ih, hrem]
  have hrun : ∀ (c : Call D) (m : Mgr D), (c.run m).maxSessions = m.maxSessions := by
    intro c m
    cases c with
    | create id doc => simp only [Call.run, create]; split <;> rfl
    | switch id => simp only [Call.run, switch]; split <;> rfl
    | remove id => exact hrem m id
    | modify id f => simp only [Call.run, Sessions.modify]; split <;> rfl
    | cleanup stale => simp only [Call.run, cleanup]; split; · exact hfold _ _
                       · rfl
  unfold after
  have : ∀ (cs : List (Call D)) (m : Mgr D), (cs.foldl Call.run m).maxSessions = m.maxSessions := by
    intro cs
    induction cs with
    | nil => intro m; rfl
    | cons c cs ih => intro m; simp only [List.foldl_cons]; rw [ih, hrun]
  rw [this]; rfl

/-- **C18.** A call changes no document but that of the session it is directed at. -/
theorem C18_isolation (m : Mgr D) (c : Call D) (id : Str) (h : ¬ c.Touches id) :
    docOf (c.run m) id = docOf m id := by
  unfold docOf
  congr 1
  cases c with
  | create i doc =>
    simp only [Call.run, create]
    split
    · rfl
    · exact Map.get_insert_ne (fun e => h e.symm)
  | switch i => simp only [Call.run, switch]; split <;> rfl
  | remove i => exact remove_get h
  | modify i f =>
    simp only [Call.run, Sessions.modify]
    split
    · rfl
    · exact Map.get_insert_ne (fun e => h e.symm)
  | cleanup stale =>
    simp only [Call.Touches, Bool.not_eq_true] at h
    exact cleanup_get h

/-- **C18.** Creation, editing and removal have their effect on the session they name; a creation
beyond the limit has none. -/
theorem C18_effects (m : Mgr D) (id : Str) (doc : D) (f : D → Bool × D) :
    (m.sessions.length < m.maxSessions →
      (create m id doc).1 = true ∧ docOf (create m id doc).2 id = some doc) ∧
    (m.maxSessions ≤ m.sessions.length → create m id doc = (false, m)) ∧
    docOf (remove m id).2 id = none ∧
    (docOf (Sessions.modify m id f).2 id = (docOf m id).map (fun d => (f d).2)) := by
  refine ⟨?_, ?_, ?_, ?_⟩
  · intro h
    simp only [create, Nat.not_le.2 h, if_false, docOf, Map.get_insert_self]
    exact ⟨trivial, rfl⟩
  · intro h; simp [create, h]
  · unfold docOf remove
    cases hg : m.sessions.get id with
    | none => simp [hg]
    | some s => simp
  · unfold docOf Sessions.modify
    cases hg : m.sessions.get id with
    | none => simp [hg]
    | some s => simp

/-- **C18.** The session counter never underflows: it is positive whenever a session exists. -/
theorem C18_no_underflow (n : Nat) (auto : Bool) (cs : List (Call D)) (id : Str) (d : D)
    (h : docOf (after n auto cs) id = some d) : 0 < (after n auto cs).activeCount := by
  have hi := inv_after n auto cs
  have hc := hi.count
  have : 0 < (after n auto cs).sessions.length := by
    cases hs : (after n auto cs).sessions with
    | nil => simp [docOf, hs] at h
    | cons a l => simp
  omega

example : (after 2 true [.create ['a'] 1, .create ['b'] 2, .create ['c'] (3 : Nat),
    .switch ['b'], .modify ['a'] (fun d => (true, d + 10)), .remove ['b']]).sessions = [(['a'], (11, 1))] := by
  decide

/-- **C54.** The number of operations reported for a session starts at zero, grows by one with every
successful operation on it and by nothing else: failed operations and calls for other sessions leave it. -/
theorem C54_operations (m : Mgr D) (id : Str) (doc : D) (f : D → Bool × D) :
    (m.sessions.length < m.maxSessions → opsOf (create m id doc).2 id = some 0) ∧
    (∀ d k, docOf m id = some d → opsOf m id = some k →
      opsOf (Sessions.modify m id f).2 id = some (if (f d).1 = true then k + 1 else k) ∧
      (Sessions.modify m id f).1 = (f d).1) ∧
    (∀ c : Call D, ¬ c.Touches id → opsOf (c.run m) id = opsOf m id) := by
  refine ⟨?_, ?_, ?_⟩
  · intro h
    simp only [create, Nat.not_le.2 h, if_false, opsOf, Map.get_insert_self]
    rfl
  · intro d k hd hk
    unfold docOf at hd
    unfold opsOf at hk ⊢
    unfold Sessions.modify
    cases hg : m.sessions.get id with
    | none => simp [hg] at hd
    | some s =>
      rw [hg] at hd hk
      simp only [Option.map_some, Option.some.injEq] at hd hk
      subst hd hk
      simp
  · intro c h
    unfold opsOf
    congr 1
    cases c with
    | create i doc =>
      simp only [Call.run, create]
      split
      · rfl
      · exact Map.get_insert_ne (fun e => h e.symm)
    | switch i => simp only [Call.run, switch]; split <;> rfl
    | remove i => exact remove_get h
    | modify i f =>
      simp only [Call.run, Sessions.modify]
      split
      · rfl
      · exact Map.get_insert_ne (fun e => h e.symm)
    | cleanup stale =>
      simp only [Call.Touches, Bool.not_eq_true] at h
      exact cleanup_get h

example : opsOf (after 2 true [.create ['a'] (1 : Nat), .modify ['a'] (fun d => (true, d + 1)),
    .modify ['a'] (fun d => (false, d + 1)), .modify ['a'] (fun d => (true, d + 1))]) ['a'] = some 2 := by
  decide

/-- **C54, disagreement.** The reported number of active sessions is wrong after a session id is
created twice (and the first document is silently discarded). -/
theorem C54_stats_violated :
    ¬ ∀ (n : Nat) (auto : Bool) (cs : List (Call Nat)),
        (after n auto cs).activeCount = (after n auto cs).sessions.length := by
  intro h
  have := h 5 true [.create ['a'] 1, .create ['a'] 2]
  revert this; decide

/-- **C54.** The statistic is right as long as no existing id is created again.
Missing: creating an existing id again (`C54_stats_violated`). -/
theorem C54_stats_partial (n : Nat) (auto : Bool) (cs : List (Call D))
    (h : ∀ pre id doc post, cs = pre ++ .create id doc :: post → docOf (after n auto pre) id = none) :
    (after n auto cs).activeCount = (after n auto cs).sessions.length := by
  have hrem : ∀ (m : Mgr D) id, Inv m → m.activeCount = m.sessions.length →
      (remove m id).2.activeCount = (remove m id).2.sessions.length := by
    intro m id hi he
    unfold remove
    cases hg : m.sessions.get id with
    | none => exact he
    | some s =>
      have := Map.length_erase_of_some hi.wf hg
      simp only; omega
  have hfold : ∀ (l : List Str) (m : Mgr D), Inv m → m.activeCount = m.sessions.length →
      (l.foldl (fun m id => (remove m id).2) m).activeCount =
        (l.foldl (fun m id => (remove m id).2) m).sessions.length := by
    intro l
    induction l with
    | nil => intro m _ he; exact he
    | cons a l ih => intro m hi he; exact ih _ (inv_remove hi a) (hrem m a hi he)
  have hrun : ∀ (c : Call D) (m : Mgr D), Inv m → m.activeCount = m.sessions.length →
      (∀ id doc, c = .create id doc → docOf m id = none) →
      (c.run m).activeCount = (c.run m).sessions.length := by
    intro c m hi he hc
    cases c with
    | create id doc =>
      have hn : m.sessions.get id = none := by
        have := hc id doc rfl
        simpa [docOf] using this
      simp only [Call.run, create]
      split
      · exact he
      · simp only [Map.length_insert_of_none hn]; omega
    | switch id => simp only [Call.run, switch]; split <;> exact he
    | remove id => exact hrem m id hi he
    | modify id f =>
      simp only [Call.run, Sessions.modify]
      split
      · exact he
      · next d k hg => simp only [Map.length_insert_of_some hi.wf hg]; exact he
    | cleanup stale =>
      simp only [Call.run, cleanup]
      split
      · exact hfold _ _ hi he
      · exact he
  have key : ∀ (cs pre : List (Call D)) (m : Mgr D), m = after n auto pre → Inv m →
      m.activeCount = m.sessions.length →
      (∀ p id doc post, pre ++ cs = p ++ .create id doc :: post → docOf (after n auto p) id = none) →
      (cs.foldl Call.run m).activeCount = (cs.foldl Call.run m).sessions.length := by
    intro cs
    induction cs with
    | nil => intro pre m _ _ he _; exact he
    | cons c cs ih =>
      intro pre m hm hi he hyp
      simp only [List.foldl_cons]
      refine ih (pre ++ [c]) _ ?_ (inv_run hi c) ?_ ?_
      · rw [hm]; simp [after, List.foldl_append]
      · apply hrun c m hi he
        intro id doc hc
        rw [hm]
        exact hyp pre id doc cs (by rw [hc])
      · intro p id doc post hp
        exact hyp p id doc post (by rw [← hp]; simp)
  exact key cs [] _ rfl (inv_new n auto) rfl (by simpa using h)

example : (after 5 true [.create ['a'] 1, .create ['b'] (2 : Nat), .remove ['a']]).activeCount = 1 := by
  decide

end Verif.Props
