import Verif.Lemmas.Events
/-!
# C19 — event channel
-/
namespace Verif.Props
open Verif Verif.Events Verif.Spec.Ev

/-- **C19.** Handler ids are never reused: over any history, from any state, the ids handed out are
strictly increasing. -/
theorem C19_ids_never_reused (n : Nat) (cs : List Call) :
    (idsFrom (Channel.new n) cs).Pairwise (· < ·) := idsFrom_lt cs _

/-- **C19.** Registered handlers have distinct ids, the limit is respected and the reported handler
count is exact. -/
theorem C19_registry_consistent (n : Nat) (cs : List Call) :
    ((after n cs).handlers.map (·.id)).Nodup ∧
    (after n cs).handlers.length ≤ (after n cs).maxHandlers ∧
    (after n cs).handlersCount = (after n cs).handlers.length :=
  ⟨(inv_after n cs).nodup, (inv_after n cs).limit, (inv_after n cs).count⟩

/-- **C19.** Handlers are kept in service order: descending priority, registration order among
equals. -/
theorem C19_service_order (n : Nat) (cs : List Call) : (after n cs).handlers.Pairwise Before :=
  (inv_after n cs).order

/-- **C19.** A successful registration adds exactly the new handler; a refused one adds none;
unregistering removes exactly that handler. -/
theorem C19_register_unregister (n : Nat) (cs : List Call) (f : Filter) (p : Int) (x : Ev → Bool) (id : Nat) :
    let c := after n cs
    ((register c f p x).1 = none → (register c f p x).2.handlers = c.handlers ∧
        c.maxHandlers ≤ c.handlers.length) ∧
    (∀ i, (register c f p x).1 = some i →
      ∀ h, h ∈ (register c f p x).2.handlers ↔ h = ⟨i, f, p, x, 0⟩ ∨ h ∈ c.handlers) ∧
    (unregister c id).2.handlers = c.handlers.filter (fun h => h.id ≠ id) := by
  intro c
  have hi := inv_after n cs
  refine ⟨?_, ?_, ?_⟩
  · intro h
    by_cases hl : c.handlers.length < c.maxHandlers
    · simp [register, Nat.not_le.2 hl] at h
    · simp [register, Nat.not_lt.1 hl]
  · intro i h a
    by_cases hl : c.handlers.length < c.maxHandlers
    · rw [register_handlers hi f p x hl, place_mem]
      have : i = c.next := by simp [register, Nat.not_le.2 hl] at h; exact h.symm
      rw [this]
    · simp [register, Nat.not_lt.1 hl] at h
  · unfold unregister
    split
    · exact dropId_eq_filter hi.nodup id
    · next ha =>
      symm
      rw [List.filter_eq_self]
      intro a hm
      simp only [List.any_eq_true, not_exists, not_and, beq_iff_eq] at ha
      simpa using ha a hm

/-- **C19.** What a filter accepts. -/
theorem C19_filter (f : Filter) (e : Ev) : f.accepts e = true ↔ Accepts f e := accepts_iff f e

/-- **C19, partial.** When no accepting handler fails, the event is delivered exactly once to every
accepting handler, in service order, and to no other; the filtered count grows by the rest.
Missing: what happens when a handler returns an error (see `C19_delivery_violated`). -/
theorem C19_delivery_partial (c : Channel) (e : Ev)
    (h : ∀ x ∈ c.handlers, Accepts x.filter e → x.fails e = false) :
    (dispatch c e).1 = (c.handlers.filter (fun x => x.filter.accepts e)).map (·.id) ∧
    (dispatch c e).2.1 = true ∧
    (dispatch c e).2.2.dispatched = c.dispatched + 1 ∧
    (dispatch c e).2.2.filtered + (dispatch c e).1.length = c.filtered + c.handlers.length := by
  have hd := deliver_ok h
  refine ⟨hd.1, hd.2.1, rfl, ?_⟩
  show (if (deliver e c.handlers).2.1 then c.filtered + (deliver e c.handlers).2.2.2 else c.filtered) +
      (deliver e c.handlers).1.length = _
  rw [hd.1, hd.2.1, hd.2.2]
  have := length_filter_split (fun x : Handler => x.filter.accepts e) c.handlers
  simp only [if_true, List.length_map]
  omega

/-- **C19.** When an accepting handler fails, exactly the accepting handlers up to it are called, and
the dispatch reports the failure. -/
theorem C19_delivery_failure (c : Channel) (e : Ev) (pre post : List Handler) (x : Handler)
    (hc : c.handlers = pre ++ x :: post)
    (hpre : ∀ a ∈ pre, Accepts a.filter e → a.fails e = false)
    (hx : Accepts x.filter e) (hf : x.fails e = true) :
    (dispatch c e).1 = ((pre ++ [x]).filter (fun x => x.filter.accepts e)).map (·.id) ∧
    (dispatch c e).2.1 = false := by
  have := deliver_fail (post := post) hpre hx hf
  rw [← hc] at this
  exact this

/-- A filter that accepts everything, `EventFilter::new()`. -/
def anyFilter : Filter := ⟨[], [], none, none⟩

/-- **C19, disagreement.** An event is not delivered to every accepting handler: one handler's error
keeps the event from all later ones. -/
theorem C19_delivery_violated :
    ¬ ∀ (n : Nat) (cs : List Call) (e : Ev),
        ∀ h ∈ (after n cs).handlers, Accepts h.filter e → h.id ∈ (dispatch (after n cs) e).1 := by
  intro hall
  have := hall 10 [.register anyFilter 5 (fun _ => true), .register anyFilter 0 (fun _ => false)]
    ⟨[], true, false, 0⟩ ⟨1, anyFilter, 0, fun _ => false, 0⟩
    (by simp [after, Call.run, register, Channel.new, sortByPrio, place])
    (by constructor <;> simp [anyFilter])
  simp [after, Call.run, register, Channel.new, sortByPrio, place, dispatch, deliver, anyFilter,
    Filter.accepts] at this

example :
    let c := after 10 [.register anyFilter 0 (fun _ => false), .register anyFilter 9 (fun _ => false),
      .register ⟨[], ["CursorMoved".toList], none, none⟩ 9 (fun _ => false), .register anyFilter 0 (fun _ => false)]
    (dispatch c ⟨"CursorMoved".toList, false, true, 0⟩).1 = [1, 0, 3] := by decide

end Verif.Props
