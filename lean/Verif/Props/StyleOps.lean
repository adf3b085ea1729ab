import Verif.Spec.StyleOps
import Verif.Lemmas.Map
import Verif.Props.StyleCmd
/-!
# C171 — chained edits of a style
-/
namespace Verif.Props.StyleOps
open Verif Verif.StyleOps Verif.Spec.StyleOps Verif.Spec.StyleCmd
open Verif.Spec.EventCmd (Lacks csv)

theorem sets_iff (s : Setter) (k v : Str) : Sets s k v ↔ s.entry = (k, v) := by
  constructor
  · intro h
    cases h with
    | bold b v h => rcases h with ⟨rfl, rfl⟩ | ⟨rfl, rfl⟩ <;> rfl
    | italic b v h => rcases h with ⟨rfl, rfl⟩ | ⟨rfl, rfl⟩ <;> rfl
    | _ => rfl
  · intro h
    cases s with
    | font f => cases h; exact .font _
    | size n => cases h; exact .size _
    | color c => cases h; exact .color _
    | bold b => cases h; exact .bold _ _ (by cases b; exact .inr ⟨rfl, rfl⟩; exact .inl ⟨rfl, rfl⟩)
    | italic b => cases h; exact .italic _ _ (by cases b; exact .inr ⟨rfl, rfl⟩; exact .inl ⟨rfl, rfl⟩)
    | alignment n => cases h; exact .alignment _
    | field a b => cases h; exact .field _ _

theorem collect_snoc (ss : List Setter) (s : Setter) : collect (ss ++ [s]) = (collect ss).insert s.entry.1 s.entry.2 := by
  simp [collect]

theorem snoc_ind {P : List Setter → Prop} (h0 : P []) (h1 : ∀ ss s, P ss → P (ss ++ [s])) (ss : List Setter) : P ss := by
  have : ∀ r : List Setter, P r.reverse := by
    intro r
    induction r with
    | nil => exact h0
    | cons s r ih => rw [List.reverse_cons]; exact h1 _ _ ih
  have h := this ss.reverse
  rwa [List.reverse_reverse] at h

theorem collect_wf (ss : List Setter) : ((collect ss).map (·.1)).Nodup := by
  refine snoc_ind (P := fun ss => ((collect ss).map (·.1)).Nodup) (by simp [collect]) (fun ss s ih => ?_) ss
  rw [collect_snoc]
  unfold Map.insert Map.erase
  rw [List.map_cons, List.nodup_cons]
  refine ⟨?_, ?_⟩
  · intro hm
    obtain ⟨p, hp, e⟩ := List.mem_map.1 hm
    have := (List.mem_filter.1 hp).2
    simp at this
    exact this e
  · exact List.Nodup.sublist (List.Sublist.map _ (List.filter_sublist)) ih

theorem collect_mem (ss : List Setter) : ∀ k v, (k, v) ∈ collect ss ↔ LastSet ss k v := by
  refine snoc_ind (P := fun ss => ∀ k v, (k, v) ∈ collect ss ↔ LastSet ss k v) ?_ (fun ss s ih k v => ?_) ss
  · intro k v
    constructor
    · intro h; cases h
    · rintro ⟨a, s, b, h, _⟩; simp at h
  · rw [collect_snoc]
    unfold Map.insert Map.erase
    rw [List.mem_cons, List.mem_filter, ih]
    constructor
    · rintro (h | ⟨⟨a, x, b, e1, e2, e3⟩, h⟩)
      · exact ⟨ss, s, [], rfl, (sets_iff ..).2 (by rw [h]), by simp⟩
      · refine ⟨a, x, b ++ [s], by rw [e1]; simp, e2, ?_⟩
        intro y hy w hw
        rcases List.mem_append.1 hy with hy | hy
        · exact e3 y hy w hw
        · rw [List.mem_singleton] at hy
          subst hy
          rw [sets_iff] at hw
          simp [hw] at h
    · rintro ⟨a, x, b, e1, e2, e3⟩
      rcases List.eq_nil_or_concat b with rfl | ⟨b', y, rfl⟩
      · have h := List.append_inj' e1 rfl
        have hx : s = x := by have := h.2; simpa using this
        subst hx
        rw [sets_iff] at e2
        exact .inl (by rw [e2])
      · rw [List.concat_eq_append] at e1 e3
        rw [show a ++ x :: (b' ++ [y]) = (a ++ x :: b') ++ [y] by simp] at e1
        have h := List.append_inj' e1 rfl
        have hy : s = y := by have := h.2; simpa using this
        subst hy
        refine .inr ⟨⟨a, x, b', h.1, e2, fun z hz => e3 z (by simp [hz])⟩, ?_⟩
        have := e3 s (by simp) s.entry.2
        simp only [decide_eq_true_eq]
        intro hk
        exact this ((sets_iff ..).2 (by rw [hk]))

theorem inj_of_nodup : ∀ {m : List (Str × Str)}, (m.map (·.1)).Nodup → ∀ {x y : Str × Str}, x ∈ m → y ∈ m → x.1 = y.1 → x = y
  | [], _, _, _, h, _, _ => by cases h
  | p :: m, hn, x, y, hx, hy, e => by
    rw [List.map_cons, List.nodup_cons] at hn
    rcases List.mem_cons.1 hx with hx' | hx' <;> rcases List.mem_cons.1 hy with hy' | hy'
    · rw [hx', hy']
    · exact absurd (List.mem_map.2 ⟨y, hy', by rw [← e, hx']⟩) hn.1
    · exact absurd (List.mem_map.2 ⟨x, hx', by rw [e, hy']⟩) hn.1
    · exact inj_of_nodup hn.2 hx' hy' e

theorem update_comm (names fields : List Str) (x y : Str × Str) (h : x.1 = y.1 → x = y) :
    StyleCmd.update names (StyleCmd.update names fields x) y = StyleCmd.update names (StyleCmd.update names fields y) x := by
  by_cases hxy : x.1 = y.1
  · rw [h hxy]
  · unfold StyleCmd.update
    cases hi : names.findIdx? (· = x.1) with
    | none =>
      cases hj : names.findIdx? (· = y.1) with
      | none => rfl
      | some j => rfl
    | some i =>
      cases hj : names.findIdx? (· = y.1) with
      | none => rfl
      | some j =>
        have hne : i ≠ j := by
          rintro rfl
          obtain ⟨h1, h2, _⟩ := List.findIdx?_eq_some_iff_getElem.1 hi
          obtain ⟨_, h3, _⟩ := List.findIdx?_eq_some_iff_getElem.1 hj
          simp only [decide_eq_true_eq] at h2 h3
          exact hxy (h2.symm.trans h3)
        dsimp only
        by_cases h1 : i < fields.length <;> by_cases h2 : j < fields.length <;>
          simp only [h1, h2, if_true, if_false, List.length_set]
        exact List.set_comm _ _ hne

/-- **C171.** What a chained edit does depends only on the value last set for each field: neither on the order of the calls, nor on the order in
which the values come out of the hash map. -/
theorem C171_order {ss ss' : List Setter} (h : ∀ k v, LastSet ss k v ↔ LastSet ss' k v) {us vs : List (Str × Str)} (hu : us.Perm (collect ss))
    (hv : vs.Perm (collect ss')) (name : Str) (d : Doc.Doc) : apply name us d = apply name vs d := by
  have nd : ∀ ss, (collect ss).Nodup := fun ss => by
    have := collect_wf ss
    unfold List.Nodup at this ⊢
    exact (List.pairwise_map.1 this).imp (fun hne e => hne (by rw [e]))
  have hp : us.Perm vs := by
    refine hu.trans (List.Perm.trans ?_ hv.symm)
    refine (List.perm_ext_iff_of_nodup (nd ss) (nd ss')).2 ?_
    rintro ⟨k, v⟩
    rw [collect_mem, collect_mem, h]
  have uniq : ∀ x ∈ us, ∀ y ∈ us, x.1 = y.1 → x = y := by
    intro x hx y hy e
    have hx' := (hu.mem_iff).1 hx
    have hy' := (hu.mem_iff).1 hy
    exact inj_of_nodup (collect_wf ss) hx' hy' e
  have key : ∀ names fields, us.foldl (StyleCmd.update names) fields = vs.foldl (StyleCmd.update names) fields := fun names fields =>
    hp.foldl_eq' (fun x hx y hy z => update_comm names z x y (uniq x hx y hy)) fields
  unfold apply StyleCmd.edit
  simp only [key]

/-- Bold first or last, and a size that is set again later. -/
example (d : Doc.Doc) : apply "A".toList [("Bold".toList, "-1".toList), ("Fontsize".toList, "30".toList)] d =
    apply "A".toList [("Fontsize".toList, "30".toList), ("Bold".toList, "-1".toList)] d :=
  C171_order (ss := [.size 20, .bold true, .size 30]) (ss' := [.size 20, .bold true, .size 30]) (fun _ _ => Iff.rfl)
    (List.isPerm_iff.1 (by decide)) (List.isPerm_iff.1 (by decide)) _ _

/-- **C171, partial.** In a document with a styles section that holds the style, the edit gives every field of the style line the value last set
for it, and leaves the others alone.

Missing: what C39 leaves open, the field of the name among it. -/
theorem C171_values_partial (d : Doc.Doc) (p h s y name n0 : Str) (names fs : List Str) (ss : List Setter) (us : List (Str × Str))
    (hu : us.Perm (collect ss))
    (hdr : Header h (p ++ h ++ '\n' :: ("Format: ".toList ++ spaced (n0 :: names) ++ '\n' :: s)))
    (hlast : Lacks h ("Format: ".toList ++ spaced (n0 :: names) ++ '\n' :: s))
    (hn : '\n' ∉ name) (hc : ',' ∉ name) (hfs : fs ≠ []) (hfc : ∀ f ∈ fs, ',' ∉ f ∧ '\n' ∉ f)
    (hnc : ∀ x ∈ n0 :: names, ',' ∉ x ∧ '\n' ∉ x) (hnd : (n0 :: names).Nodup)
    (hx : Lead s) (hun : Unseen name (p ++ h ++ '\n' :: ("Format: ".toList ++ spaced (n0 :: names) ++ '\n' :: s)))
    (h0 : ∀ v, ¬ LastSet ss n0 v) (hy : Tail y)
    (hd : d.text = p ++ h ++ '\n' :: ("Format: ".toList ++ spaced (n0 :: names) ++ '\n' :: s) ++ style name (csv fs) ++ y) :
    ∃ d' fs', apply name us d = (.ok (), d') ∧
      d'.text = p ++ h ++ '\n' :: ("Format: ".toList ++ spaced (n0 :: names) ++ '\n' :: s) ++ style name (csv fs') ++ y ∧
      fs'.length = fs.length ∧ ∀ i, i < fs.length →
        (∀ k v, names[i]? = some k → LastSet ss k v → fs'[i]? = some v) ∧
        ((∀ k v, names[i]? = some k → ¬ LastSet ss k v) → fs'[i]? = fs[i]?) := by
  have hm : ∀ u : Str × Str, u ∈ us ↔ LastSet ss u.1 u.2 := fun u => by rw [hu.mem_iff]; exact collect_mem ss u.1 u.2
  obtain ⟨d', fs', e1, ⟨e2, e3⟩, e4⟩ := C39_edit_partial d p h s y name n0 names fs us hdr hlast hn hc hfs hfc hnc hnd hx hun
    (fun u hu' e => h0 u.2 (by rw [← e]; exact (hm u).1 hu')) hy hd
  refine ⟨d', fs', e1, e4, e2, fun i hi => ⟨?_, ?_⟩⟩
  · intro k v hk hl
    have hkv : (k, v) ∈ us := (hm (k, v)).2 hl
    rcases e3 i hi with ⟨u, h1, h2, h3⟩ | ⟨h1, _⟩
    · have : u = (k, v) := by
        refine inj_of_nodup (collect_wf ss) ((hu.mem_iff).1 h1) ((hu.mem_iff).1 hkv) ?_
        rw [h2] at hk
        injection hk
      rw [h3, this]
    · exact absurd hk (h1 (k, v) hkv)
  · intro hno
    rcases e3 i hi with ⟨u, h1, h2, _⟩ | ⟨_, h2⟩
    · exact absurd ((hm u).1 h1) (hno _ _ h2)
    · exact h2

/-- A document with one style. -/
def sheet : Doc.Doc := ⟨"[V4+ Styles]\nFormat: Name, Fontname, Fontsize\nStyle: A,Arial,20\n".toList, Doc.Stack.new ⟨50, 0, 100⟩⟩

example : (apply "A".toList (collect [.size 10, .font "Times".toList, .size 30]) sheet).2.text =
    "[V4+ Styles]\nFormat: Name, Fontname, Fontsize\nStyle: A,Times,30\n".toList := by decide +kernel

/-- **C171, disagreement.** A value with a comma is written as it is and moves the fields behind it; a field the format line does not name is
dropped, and the edit is called a success. -/
theorem C171_value_violated :
    ((apply "A".toList (collect [.font "B,C".toList]) sheet).1 = .ok () ∧
      (apply "A".toList (collect [.font "B,C".toList]) sheet).2.text =
        "[V4+ Styles]\nFormat: Name, Fontname, Fontsize\nStyle: A,B,C,20\n".toList) ∧
    ((apply "A".toList (collect [.bold true]) sheet).1 = .ok () ∧ (apply "A".toList (collect [.bold true]) sheet).2.text = sheet.text) := by
  decide +kernel

end Verif.Props.StyleOps
