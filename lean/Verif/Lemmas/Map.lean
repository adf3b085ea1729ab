import Verif.Model.Map
namespace Verif.Map
variable {K V : Type} [DecidableEq K]

@[simp] theorem get_nil (k : K) : get ([] : Map K V) k = none := rfl

theorem get_cons (k' : K) (v : V) (t : Map K V) (k : K) :
    get ((k', v) :: t) k = if k' = k then some v else get t k := rfl

theorem get_filter (m : Map K V) (q : K → Bool) (k : K) :
    get (m.filter (fun p => q p.1)) k = if q k then get m k else none := by
  induction m with
  | nil => simp
  | cons p t ih =>
    obtain ⟨a, b⟩ := p
    by_cases hq : q a
    · rw [List.filter_cons_of_pos (by simpa using hq), get_cons, ih, get_cons]
      by_cases h : a = k
      · subst h; simp [hq]
      · simp [h]
    · rw [List.filter_cons_of_neg (by simpa using hq), ih, get_cons]
      by_cases h : a = k
      · subst h; simp [hq]
      · simp [h]

theorem get_erase (m : Map K V) (k k' : K) :
    get (erase m k) k' = if k' = k then none else get m k' := by
  unfold erase
  have := get_filter m (fun x => decide (x ≠ k)) k'
  simp only [this]
  by_cases h : k' = k <;> simp [h]

theorem get_insert (m : Map K V) (k k' : K) (v : V) :
    get (insert m k v) k' = if k' = k then some v else get m k' := by
  unfold insert
  rw [get_cons, get_erase]
  by_cases h : k = k'
  · subst h; simp
  · have h' : ¬ k' = k := fun e => h e.symm
    simp [h, h']

@[simp] theorem get_insert_self (m : Map K V) (k : K) (v : V) : get (insert m k v) k = some v := by
  simp [get_insert]

theorem get_insert_ne {m : Map K V} {k k' : K} {v : V} (h : k' ≠ k) :
    get (insert m k v) k' = get m k' := by simp [get_insert, h]

@[simp] theorem get_erase_self (m : Map K V) (k : K) : get (erase m k) k = none := by simp [get_erase]

theorem get_erase_ne {m : Map K V} {k k' : K} (h : k' ≠ k) : get (erase m k) k' = get m k' := by
  simp [get_erase, h]

theorem get_eq_none {m : Map K V} {k : K} : get m k = none ↔ ∀ v, (k, v) ∉ m := by
  induction m with
  | nil => simp
  | cons p t ih =>
    obtain ⟨a, b⟩ := p
    rw [get_cons]
    by_cases h : a = k
    · subst h; simp; exact ⟨b, fun h => absurd rfl (h)⟩
    · simp only [h, if_false, ih, List.mem_cons, Prod.mk.injEq, not_or, not_and]
      constructor
      · intro hv v; exact ⟨fun e => absurd e.symm h, hv v⟩
      · intro hv v; exact (hv v).2

theorem mem_of_get {m : Map K V} {k : K} {v : V} (h : get m k = some v) : (k, v) ∈ m := by
  induction m with
  | nil => simp at h
  | cons p t ih =>
    obtain ⟨a, b⟩ := p
    rw [get_cons] at h
    split at h
    · next e => subst e; injection h with h; subst h; simp
    · exact List.mem_cons_of_mem _ (ih h)

theorem get_of_mem {m : Map K V} (hw : WF m) {k : K} {v : V} (h : (k, v) ∈ m) : get m k = some v := by
  induction m with
  | nil => simp at h
  | cons p t ih =>
    obtain ⟨a, b⟩ := p
    unfold WF at hw
    simp only [List.map_cons, List.nodup_cons, List.mem_map, not_exists, not_and] at hw
    rw [get_cons]
    rcases List.mem_cons.1 h with e | h
    · injection e with e1 e2; subst e1; subst e2; simp
    · rw [if_neg (fun e => hw.1 (k, v) h e.symm), ih hw.2 h]

omit [DecidableEq K] in
theorem wf_nil : WF ([] : Map K V) := by simp [WF]

omit [DecidableEq K] in
theorem wf_filter {m : Map K V} (h : WF m) (q : K × V → Bool) : WF (m.filter q) :=
  List.Nodup.sublist (List.filter_sublist.map _) h

theorem wf_erase {m : Map K V} (h : WF m) (k : K) : WF (erase m k) := wf_filter h _

theorem wf_insert {m : Map K V} (h : WF m) (k : K) (v : V) : WF (insert m k v) := by
  unfold insert WF
  simp only [List.map_cons, List.nodup_cons]
  refine ⟨?_, wf_erase h k⟩
  simp [erase]

theorem erase_of_none {m : Map K V} {k : K} (h : get m k = none) : erase m k = m := by
  unfold erase
  rw [List.filter_eq_self]
  intro p hp
  obtain ⟨a, b⟩ := p
  rw [get_eq_none] at h
  simp only [ne_eq, decide_not, Bool.not_eq_true', decide_eq_false_iff_not]
  intro e; subst e; exact h b hp

theorem length_erase_of_some {m : Map K V} (hw : WF m) {k : K} {v : V} (h : get m k = some v) :
    (erase m k).length + 1 = m.length := by
  induction m with
  | nil => simp at h
  | cons p t ih =>
    obtain ⟨a, b⟩ := p
    unfold WF at hw
    simp only [List.map_cons, List.nodup_cons, List.mem_map, not_exists, not_and] at hw
    rw [get_cons] at h
    split at h
    · next e =>
      subst e
      have : erase ((a, b) :: t) a = t := by
        have h1 : erase ((a, b) :: t) a = erase t a := by simp [erase]
        rw [h1, erase_of_none]
        rw [get_eq_none]
        intro v hv; exact hw.1 _ hv rfl
      rw [this]; rfl
    · next e =>
      have : erase ((a, b) :: t) k = (a, b) :: erase t k := by simp [erase, e]
      rw [this, List.length_cons, List.length_cons, ih hw.2 h]

theorem length_erase_le (m : Map K V) (k : K) : (erase m k).length ≤ m.length :=
  List.length_filter_le _ _

theorem length_insert_of_none {m : Map K V} {k : K} {v : V} (h : get m k = none) :
    (insert m k v).length = m.length + 1 := by
  unfold insert; rw [erase_of_none h]; rfl

theorem length_insert_of_some {m : Map K V} (hw : WF m) {k : K} {v w : V} (h : get m k = some w) :
    (insert m k v).length = m.length := by
  unfold insert
  have := length_erase_of_some hw h
  simp only [List.length_cons]; omega

theorem length_insert_le (m : Map K V) (k : K) (v : V) : (insert m k v).length ≤ m.length + 1 := by
  unfold insert
  have := length_erase_le m k
  simp only [List.length_cons]; omega

theorem has_iff {m : Map K V} {k : K} : has m k = true ↔ ∃ v, get m k = some v := by
  simp [has, Option.isSome_iff_exists]

end Verif.Map
