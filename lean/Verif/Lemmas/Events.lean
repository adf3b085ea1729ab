import Verif.Spec.Events
namespace Verif.Events
open Verif Verif.Spec.Ev

theorem accepts_iff (f : Filter) (e : Ev) : f.accepts e = true ↔ Accepts f e := by
  have key : Accepts f e ↔ (e.typeName ∉ f.excludeTypes ∧
      (f.includeTypes = [] ∨ e.typeName ∈ f.includeTypes) ∧
      (∀ b, f.includeMods = some b → e.isMod = b) ∧ (∀ b, f.includeCursor = some b → e.isCursor = b)) :=
    ⟨fun ⟨a, b, c, d⟩ => ⟨a, b, c, d⟩, fun ⟨a, b, c, d⟩ => ⟨a, b, c, d⟩⟩
  rw [key]
  obtain ⟨inc, exc, mods, cur⟩ := f
  cases mods <;> cases cur <;> simp [Filter.accepts]

theorem place_mem {h x : Handler} {l : List Handler} : x ∈ place h l ↔ x = h ∨ x ∈ l := by
  induction l with
  | nil => simp [place]
  | cons a l ih =>
    simp only [place]
    split
    · simp only [List.mem_cons, ih]; constructor <;> (rintro (h | h | h) <;> simp [h])
    · simp

theorem place_length (h : Handler) (l : List Handler) : (place h l).length = l.length + 1 := by
  induction l with
  | nil => rfl
  | cons a l ih => simp only [place]; split <;> simp [ih]

theorem place_end {h : Handler} {l : List Handler} (hl : ∀ a ∈ l, a.prio ≥ h.prio) :
    place h l = l ++ [h] := by
  induction l with
  | nil => rfl
  | cons a l ih =>
    simp only [place]
    rw [if_pos (hl a (by simp)), ih (fun b hb => hl b (by simp [hb]))]
    rfl

/-- Sorting a list already in service order changes nothing. -/
theorem sort_sorted {l : List Handler} (h : l.Pairwise (fun a b => b.prio ≤ a.prio)) :
    sortByPrio l = l := by
  unfold sortByPrio
  have key : ∀ (l acc : List Handler), (acc ++ l).Pairwise (fun a b => b.prio ≤ a.prio) →
      l.foldl (fun acc h => place h acc) acc = acc ++ l := by
    intro l
    induction l with
    | nil => intro acc _; simp
    | cons a l ih =>
      intro acc hp
      simp only [List.foldl_cons]
      have : place a acc = acc ++ [a] := by
        apply place_end
        intro b hb
        rw [List.pairwise_append] at hp
        exact hp.2.2 b hb a (by simp)
      rw [this, ih _ (by simpa using hp)]
      simp
  simpa using key l [] (by simpa using h)

theorem sort_append {l : List Handler} (x : Handler) (h : l.Pairwise (fun a b => b.prio ≤ a.prio)) :
    sortByPrio (l ++ [x]) = place x l := by
  have := sort_sorted h
  unfold sortByPrio at *
  rw [List.foldl_append, this]
  rfl

theorem before_le {l : List Handler} (h : l.Pairwise Before) :
    l.Pairwise (fun a b => b.prio ≤ a.prio) := by
  refine h.imp ?_
  rintro a b (h | h) <;> omega

theorem place_before {l : List Handler} {x : Handler} (h : l.Pairwise Before)
    (hid : ∀ a ∈ l, a.id < x.id) : (place x l).Pairwise Before := by
  induction l with
  | nil => simp [place]
  | cons a l ih =>
    rw [List.pairwise_cons] at h
    simp only [place]
    split
    · next hp =>
      rw [List.pairwise_cons]
      refine ⟨?_, ih h.2 (fun b hb => hid b (by simp [hb]))⟩
      intro b hb
      rcases place_mem.1 hb with rfl | hb
      · have := hid a (by simp)
        unfold Before; omega
      · exact h.1 b hb
    · next hp =>
      rw [List.pairwise_cons]
      refine ⟨?_, List.pairwise_cons.2 h⟩
      intro b hb
      rcases List.mem_cons.1 hb with rfl | hb
      · unfold Before; omega
      · have := h.1 b hb
        unfold Before at *; omega

theorem dropId_eq_filter {l : List Handler} (h : (l.map (·.id)).Nodup) (id : Nat) :
    dropId id l = l.filter (fun x => x.id ≠ id) := by
  induction l with
  | nil => rfl
  | cons a l ih =>
    simp only [List.map_cons, List.nodup_cons, List.mem_map, not_exists, not_and] at h
    simp only [dropId]
    by_cases e : a.id = id
    · rw [if_pos e, List.filter_cons_of_neg (by simp [e]), List.filter_eq_self.2]
      intro b hb
      have := h.1 b hb
      simp only [ne_eq, decide_not, Bool.not_eq_true', decide_eq_false_iff_not]
      omega
    · rw [if_neg e, List.filter_cons_of_pos (by simp [e]), ih h.2]

/-- Identity and priority of a handler. -/
def key (h : Handler) : Nat × Int := (h.id, h.prio)

theorem pairwise_key {l l' : List Handler} (h : l.map key = l'.map key) (hp : l.Pairwise Before) :
    l'.Pairwise Before := by
  have e : ∀ l : List Handler, l.Pairwise Before ↔
      (l.map key).Pairwise (fun a b => b.2 < a.2 ∨ (a.2 = b.2 ∧ a.1 < b.1)) := by
    intro l; rw [List.pairwise_map]; rfl
  rw [e] at hp ⊢
  rw [← h]; exact hp

theorem deliver_key (e : Ev) (l : List Handler) : (deliver e l).2.2.1.map key = l.map key := by
  induction l with
  | nil => rfl
  | cons h l ih =>
    simp only [deliver]
    split
    · split
      · rfl
      · simp only [List.map_cons, ih]; rfl
    · simp only [List.map_cons, ih]

/-- Invariant of reachable channels. -/
structure Inv (c : Channel) : Prop where
  order : c.handlers.Pairwise Before
  nodup : (c.handlers.map (·.id)).Nodup
  fresh : ∀ h ∈ c.handlers, h.id < c.next
  limit : c.handlers.length ≤ c.maxHandlers
  count : c.handlersCount = c.handlers.length

theorem place_perm (x : Handler) (l : List Handler) : (place x l).Perm (x :: l) := by
  induction l with
  | nil => exact .refl _
  | cons a l ih =>
    simp only [place]
    split
    · exact (List.Perm.cons a ih).trans (List.Perm.swap x a l)
    · exact .refl _

theorem register_handlers {c : Channel} (h : Inv c) (f : Filter) (p : Int) (x : Ev → Bool)
    (hl : c.handlers.length < c.maxHandlers) :
    (register c f p x).2.handlers = place ⟨c.next, f, p, x, 0⟩ c.handlers := by
  simp only [register, Nat.not_le.2 hl, if_false]
  exact sort_append _ (before_le h.order)

theorem inv_register {c : Channel} (h : Inv c) (f : Filter) (p : Int) (x : Ev → Bool) :
    Inv (register c f p x).2 := by
  by_cases hl : c.handlers.length < c.maxHandlers
  · have e := register_handlers h f p x hl
    have en : (register c f p x).2.next = c.next + 1 := by simp [register, Nat.not_le.2 hl]
    have em : (register c f p x).2.maxHandlers = c.maxHandlers := by simp [register, Nat.not_le.2 hl]
    have ec : (register c f p x).2.handlersCount = c.handlersCount + 1 := by
      simp [register, Nat.not_le.2 hl]
    refine ⟨?_, ?_, ?_, ?_, ?_⟩
    · rw [e]; exact place_before h.order h.fresh
    · rw [e, ((place_perm _ _).map _).nodup_iff]
      simp only [List.map_cons, List.nodup_cons, List.mem_map, not_exists, not_and]
      refine ⟨?_, h.nodup⟩
      intro a ha
      have := h.fresh a ha
      omega
    · rw [e, en]
      intro a ha
      rcases place_mem.1 ha with rfl | ha
      · simp
      · have := h.fresh a ha; omega
    · rw [e, em, place_length]; omega
    · rw [e, ec, place_length, h.count]
  · have e : (register c f p x).2 = { c with next := c.next + 1 } := by
      simp [register, Nat.not_lt.1 hl]
    rw [e]
    refine ⟨h.order, h.nodup, ?_, h.limit, h.count⟩
    intro a ha
    have := h.fresh a ha
    simp only; omega

theorem length_dropId {l : List Handler} {id : Nat} (h : l.any (fun h => h.id == id) = true) :
    (dropId id l).length + 1 = l.length := by
  induction l with
  | nil => simp at h
  | cons a l ih =>
    simp only [dropId]
    split
    · rfl
    · next hne =>
      simp only [List.any_cons, Bool.or_eq_true, beq_iff_eq, hne, false_or] at h
      simp only [List.length_cons, ih h]

theorem inv_unregister {c : Channel} (h : Inv c) (id : Nat) : Inv (unregister c id).2 := by
  unfold unregister
  split
  · next ha =>
    have hl := length_dropId ha
    have hs : (dropId id c.handlers).Sublist c.handlers := by
      rw [dropId_eq_filter h.nodup]; exact List.filter_sublist
    have := h.limit
    have := h.count
    refine ⟨h.order.sublist hs, h.nodup.sublist (hs.map _), fun a ha => h.fresh a (hs.subset ha), ?_, ?_⟩
    · simp only; omega
    · simp only; omega
  · exact h

theorem inv_clear {c : Channel} : Inv (clear c) :=
  ⟨List.Pairwise.nil, List.nodup_nil, by simp [clear], Nat.zero_le _, rfl⟩

theorem inv_dispatch {c : Channel} (h : Inv c) (e : Ev) : Inv (dispatch c e).2.2 := by
  have hk := deliver_key e c.handlers
  have hid : (deliver e c.handlers).2.2.1.map (·.id) = c.handlers.map (·.id) := by
    have := congrArg (List.map Prod.fst) hk
    simpa [List.map_map, Function.comp_def, key] using this
  have hlen : (deliver e c.handlers).2.2.1.length = c.handlers.length := by
    simpa using congrArg List.length hk
  refine ⟨pairwise_key hk.symm h.order, ?_, ?_, ?_, ?_⟩
  · show ((deliver e c.handlers).2.2.1.map _).Nodup
    rw [hid]; exact h.nodup
  · show ∀ a ∈ (deliver e c.handlers).2.2.1, a.id < c.next
    intro a ha
    have : a.id ∈ (deliver e c.handlers).2.2.1.map (·.id) := List.mem_map_of_mem ha
    rw [hid, List.mem_map] at this
    obtain ⟨b, hb, e⟩ := this
    rw [← e]; exact h.fresh b hb
  · show (deliver e c.handlers).2.2.1.length ≤ _
    rw [hlen]; exact h.limit
  · show c.handlersCount = (deliver e c.handlers).2.2.1.length
    rw [hlen]; exact h.count

theorem inv_run {c : Channel} (h : Inv c) (x : Call) : Inv (x.run c).2 := by
  cases x with
  | register f p x => exact inv_register h f p x
  | unregister id => exact inv_unregister h id
  | clear => exact inv_clear
  | dispatch e => exact inv_dispatch h e

theorem inv_new (n : Nat) : Inv (Channel.new n) :=
  ⟨List.Pairwise.nil, List.nodup_nil, by simp [Channel.new], Nat.zero_le _, rfl⟩

theorem inv_foldl (cs : List Call) : ∀ (c : Channel), Inv c → Inv (cs.foldl (fun c x => (x.run c).2) c) := by
  induction cs with
  | nil => intro c h; exact h
  | cons x cs ih => intro c h; exact ih _ (inv_run h x)

theorem inv_after (n : Nat) (cs : List Call) : Inv (after n cs) := inv_foldl cs _ (inv_new n)

theorem run_next_le (c : Channel) (x : Call) : c.next ≤ (x.run c).2.next := by
  cases x with
  | register f p x => simp only [Call.run, register]; split <;> simp
  | unregister id => simp only [Call.run, unregister]; split <;> simp
  | clear => simp [Call.run, clear]
  | dispatch e => simp [Call.run, dispatch]

theorem run_id {c : Channel} {x : Call} {i : Nat} (h : (x.run c).1 = some i) :
    i = c.next ∧ (x.run c).2.next = c.next + 1 := by
  cases x with
  | register f p x =>
    simp only [Call.run, register] at *
    split at h
    · simp at h
    · next hh => rw [if_neg hh]; simp at h; exact ⟨h.symm, rfl⟩
  | unregister id => simp [Call.run] at h
  | clear => simp [Call.run] at h
  | dispatch e => simp [Call.run] at h

theorem idsFrom_ge (cs : List Call) : ∀ (c : Channel), ∀ i ∈ idsFrom c cs, c.next ≤ i := by
  induction cs with
  | nil => intro c i h; simp [idsFrom] at h
  | cons x cs ih =>
    intro c i h
    simp only [idsFrom, List.mem_append, Option.mem_toList] at h
    rcases h with h | h
    · exact Nat.le_of_eq (run_id h).1.symm
    · exact Nat.le_trans (run_next_le c x) (ih _ i h)

theorem idsFrom_lt (cs : List Call) : ∀ (c : Channel), (idsFrom c cs).Pairwise (· < ·) := by
  induction cs with
  | nil => intro c; simp [idsFrom]
  | cons x cs ih =>
    intro c
    simp only [idsFrom]
    rw [List.pairwise_append]
    refine ⟨?_, ih _, ?_⟩
    · cases (x.run c).1 <;> simp
    · intro a ha b hb
      rw [Option.mem_toList] at ha
      have h1 := run_id ha
      have h2 := idsFrom_ge cs _ b hb
      omega

theorem length_filter_split {α : Type} (q : α → Bool) (l : List α) :
    (l.filter q).length + (l.filter (fun x => !q x)).length = l.length := by
  induction l with
  | nil => rfl
  | cons a l ih => cases h : q a <;> simp [h] <;> omega

/-- Handlers called: the accepting ones up to and including the first that fails. -/
theorem deliver_ok {e : Ev} {l : List Handler} (h : ∀ x ∈ l, Accepts x.filter e → x.fails e = false) :
    (deliver e l).1 = (l.filter (fun x => x.filter.accepts e)).map (·.id) ∧ (deliver e l).2.1 = true ∧
    (deliver e l).2.2.2 = (l.filter (fun x => !x.filter.accepts e)).length := by
  induction l with
  | nil => simp [deliver]
  | cons a l ih =>
    have ih := ih (fun x hx => h x (by simp [hx]))
    simp only [deliver]
    by_cases ha : a.filter.accepts e
    · have hf := h a (by simp) ((accepts_iff _ _).1 ha)
      simp [ha, hf, ih]
    · simp [ha, ih]

theorem deliver_fail {e : Ev} {pre post : List Handler} {x : Handler}
    (hpre : ∀ a ∈ pre, Accepts a.filter e → a.fails e = false) (hx : Accepts x.filter e)
    (hf : x.fails e = true) :
    (deliver e (pre ++ x :: post)).1 = ((pre ++ [x]).filter (fun x => x.filter.accepts e)).map (·.id) ∧
    (deliver e (pre ++ x :: post)).2.1 = false := by
  induction pre with
  | nil => simp [deliver, (accepts_iff _ _).2 hx, hf]
  | cons a l ih =>
    have ih := ih (fun x hx => hpre x (by simp [hx]))
    simp only [List.cons_append, deliver]
    by_cases ha : a.filter.accepts e
    · have hf := hpre a (by simp) ((accepts_iff _ _).1 ha)
      simpa [ha, hf] using ih
    · simpa [ha] using ih

end Verif.Events
