import Verif.Lemmas.Select
/-!
# C21 — active subtitle selection
-/
namespace Verif.Props
open Verif Verif.Select Verif.Spec.Sel

/-- **C21, partial.** After any history of queries in which address and length identify the contents
of an events section, a query does not panic, returns exactly the events of the script's first events
section shown at `t`, in file order, and reports exactly the difference with the previous query.
Missing: later events sections, and histories where a section changes in place
(`C21_stale_index_violated`, `C21_second_section_violated`). -/
theorem C21_selection_partial (cs : List Call) (script : List Sec) (t : Nat)
    (hf : Faithful (seen (cs ++ [.select script t]))) :
    ∃ s a s', runAll Sel.new cs = some s ∧ select s script t = some (a, s') ∧
      a.events = (((firstEvents script).map (·.2)).getD []).filter (fun e => decide (Shown s.comments t e)) ∧
      a.idxs.Pairwise (· < ·) ∧
      (∀ j, j ∈ a.idxs ↔ ∃ addr evs e, firstEvents script = some (addr, evs) ∧ evs[j]? = some e ∧
        Shown s.comments t e) ∧
      (∀ j, j ∈ a.newlyActive ↔ j ∈ a.idxs ∧ j ∉ s.prev) ∧
      (∀ j, j ∈ a.newlyInactive ↔ j ∈ s.prev ∧ j ∉ a.idxs) ∧
      s'.prev = a.idxs := by
  have hseen : ∀ cs : List Call, seen (cs ++ [.select script t]) = seen cs ++ (firstEvents script).toList := by
    intro cs
    induction cs with
    | nil => simp [seen]
    | cons c cs ih => cases c <;> simp [seen, ih]
  rw [hseen] at hf
  have hi0 : IndexFrom [] Sel.new := by intro ix hix; simp [Sel.new] at hix
  obtain ⟨s, hs, hi⟩ := runAll_indexFrom cs [] Sel.new hi0 (by
    intro p hp q hq; exact hf p (by simp at hp; simp [hp]) q (by simp at hq; simp [hq]))
  simp only [List.nil_append] at hi
  obtain ⟨a, s', h1, h2, h3, h4, h5, h6, h7, _, _, _, _⟩ := select_spec (t := t) (script := script) hi (by
    intro addr evs hfe p hp e1 e2
    exact hf p (by simp [hp]) (addr, evs) (by simp [hfe]) e1 e2)
  refine ⟨s, a, s', hs, h1, h4, h2, h3, ?_, ?_, h7⟩
  · intro j; rw [h5]; simp
  · intro j; rw [h6]; simp

/-- **C21.** A frame is reported clean only if nothing appeared or disappeared, nothing shown is
animated or in the middle of its karaoke, and the time moved by at most one second. -/
theorem C21_clean_frame (cs : List Call) (script : List Sec) (t : Nat)
    (hf : Faithful (seen (cs ++ [.select script t]))) :
    ∃ s a s', runAll Sel.new cs = some s ∧ select s script t = some (a, s') ∧
      (a.dirty = false → (∀ j, j ∈ a.idxs ↔ j ∈ s.prev) ∧
        (∀ e ∈ a.events, e.animated = false ∧ (e.karaoke = true → ∀ st, e.start = some st → t ≤ st)) ∧
        ∃ t0, s.last = some t0 ∧ ((t : Int) - t0).natAbs ≤ 100) := by
  have hseen : ∀ cs : List Call, seen (cs ++ [.select script t]) = seen cs ++ (firstEvents script).toList := by
    intro cs
    induction cs with
    | nil => simp [seen]
    | cons c cs ih => cases c <;> simp [seen, ih]
  rw [hseen] at hf
  have hi0 : IndexFrom [] Sel.new := by intro ix hix; simp [Sel.new] at hix
  obtain ⟨s, hs, hi⟩ := runAll_indexFrom cs [] Sel.new hi0 (by
    intro p hp q hq; exact hf p (by simp at hp; simp [hp]) q (by simp at hq; simp [hq]))
  simp only [List.nil_append] at hi
  obtain ⟨a, s', h1, h2, h3, h4, h5, h6, h7, _, _, _, hd⟩ := select_spec (t := t) (script := script) hi (by
    intro addr evs hfe p hp e1 e2
    exact hf p (by simp [hp]) (addr, evs) (by simp [hfe]) e1 e2)
  have key : a.dirty = false → ∀ j, j ∈ a.idxs ↔ j ∈ s.prev := by
    intro h j
    obtain ⟨hn, hn', _⟩ := hd h
    rw [h5, List.filter_eq_nil_iff] at hn
    rw [h6, List.filter_eq_nil_iff] at hn'
    constructor
    · intro hj; have := hn j hj; simpa using this
    · intro hj; have := hn' j hj; simpa using this
  have anim : hasAnimated a.events t = false →
      ∀ e ∈ a.events, e.animated = false ∧ (e.karaoke = true → ∀ st, e.start = some st → t ≤ st) := by
    intro h e he
    unfold hasAnimated at h
    rw [List.any_eq_false] at h
    have := h e he
    simp only [Bool.or_eq_true, Bool.and_eq_true, not_or, not_and, Bool.not_eq_true] at this
    refine ⟨this.1, fun hk st hst => ?_⟩
    have := this.2 hk
    rw [hst] at this
    simpa using this
  exact ⟨s, a, s', hs, h1, fun h => ⟨key h, anim (hd h).2.2.1, (hd h).2.2.2⟩⟩

example : ((select ⟨[0], some 149, false, none⟩ [.events 7 [⟨.dialogue, some 100, some 200, false, true⟩]] 150).map
    (·.1.dirty)) = some true ∧
    ((select ⟨[0], some 149, false, none⟩ [.events 7 [⟨.dialogue, some 100, some 200, false, false⟩]] 150).map
    (·.1.dirty)) = some false := by decide

example : (select Sel.new [.other, .events 7 [⟨.dialogue, some 100, some 200, false, false⟩,
    ⟨.comment, some 0, some 900, false, false⟩, ⟨.dialogue, some 50, some 150, false, false⟩,
    ⟨.dialogue, some 150, some 300, false, false⟩]] 149).map (·.1.idxs) = some [0, 2] := by decide

/-- **C21, disagreement.** When an event's times are edited in place (same vector, same length), the
selector keeps answering from the old times. -/
theorem C21_stale_index_violated :
    ¬ ∀ (s : Sel) (cs : List Call) (script : List Sec) (t : Nat), runAll Sel.new cs = some s →
        ∀ a s', select s script t = some (a, s') →
        a.events = (((firstEvents script).map (·.2)).getD []).filter (fun e => decide (Shown s.comments t e)) := by
  intro h
  let s0 : List Sec := [.events 7 [⟨.dialogue, some 0, some 100, false, false⟩]]
  let s1 : List Sec := [.events 7 [⟨.dialogue, some 500, some 600, false, false⟩]]
  have h1 : ∃ s, runAll Sel.new [.select s0 50] = some s ∧ ∃ a s', select s s1 50 = some (a, s') ∧
      a.events ≠ (((firstEvents s1).map (·.2)).getD []).filter (fun e => decide (Shown s.comments 50 e)) :=
    ⟨_, rfl, _, _, rfl, by decide⟩
  obtain ⟨s, hs, a, s', ha, hne⟩ := h1
  exact hne (h s _ s1 50 hs a s' ha)

/-- All events of a script, whatever section they are in. -/
def allEvents : List Sec → List Ev
  | [] => []
  | .events _ evs :: l => evs ++ allEvents l
  | .other :: l => allEvents l

/-- **C21, disagreement.** Events of a second events section are never selected. -/
theorem C21_second_section_violated :
    ¬ ∀ (script : List Sec) (t : Nat) (a : Active) (s' : Sel), select Sel.new script t = some (a, s') →
        a.events = (allEvents script).filter (fun e => decide (Shown false t e)) := by
  intro h
  let sc : List Sec := [.events 1 [], .events 2 [⟨.dialogue, some 0, some 100, false, false⟩]]
  have : ∃ a s', select Sel.new sc 50 = some (a, s') ∧
      a.events ≠ (allEvents sc).filter (fun e => decide (Shown false 50 e)) := ⟨_, _, rfl, by decide⟩
  obtain ⟨a, s', ha, hne⟩ := this
  exact hne (h sc 50 a s' ha)

end Verif.Props
