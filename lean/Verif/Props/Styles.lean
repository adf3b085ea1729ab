import Verif.Lemmas.Styles
/-!
# C23, C58 — style inheritance
-/
namespace Verif.Props
open Verif Verif.Styles Verif.Spec.Sty

variable {B R : Type}

/-- **C58.** The circular-inheritance check answers exactly whether some style inherits from itself,
and always terminates. -/
theorem C58_cycle_check_exact (styles : List (Style B)) :
    ∃ b, hasCycle (parents styles) ((keys styles).length + 1) (keys styles) ([], []) = some b ∧
      (b = true ↔ Circular styles) := hasCycle_iff styles

example : hasCycle (parents [(⟨['a'], some ['b'], ()⟩ : Style Unit), ⟨['b'], some ['c'], ()⟩, ⟨['c'], none, ()⟩,
    ⟨['d'], some ['a'], ()⟩]) 5 (keys [(⟨['a'], some ['b'], ()⟩ : Style Unit), ⟨['b'], some ['c'], ()⟩,
    ⟨['c'], none, ()⟩, ⟨['d'], some ['a'], ()⟩]) ([], []) = some false := by decide
example : hasCycle (parents [(⟨['a'], some ['b'], ()⟩ : Style Unit), ⟨['b'], some ['c'], ()⟩, ⟨['c'], some ['b'], ()⟩])
    4 (keys [(⟨['a'], some ['b'], ()⟩ : Style Unit), ⟨['b'], some ['c'], ()⟩, ⟨['c'], some ['b'], ()⟩])
    ([], []) = some true := by decide

/-- **C23.** The analysis always terminates, and what it computes for a style never depends on the
inheritance rule: for every style section and every rule `withParent`, a name resolves to the last style
of that name that resolves on its own. -/
theorem C23_never_inherits (fromStyle : Style B → Option R) (withParent : Style B → R → Option R)
    (scale : R → R) (styles : List (Style B)) :
    ∃ res, analyze fromStyle withParent scale styles = some res ∧
      ∀ n, res.get n =
        (styles.filterMap (fun s => if s.name = n then fromStyle s else none)).getLast?.map scale := by
  obtain ⟨o, ho, hspec⟩ := order_spec styles
  unfold analyze
  rw [ho]
  cases o with
  | none => exact ⟨_, rfl, fun n => resolvePlain_get fromStyle scale styles n⟩
  | some l =>
    obtain ⟨hno, hl, hlen⟩ := hspec l rfl
    have hk := keys_spec styles
    have hsub : ∀ s ∈ l, s ∈ styles := by
      intro s hs
      rw [hl, List.mem_filterMap] at hs
      obtain ⟨n, hn, hs⟩ := hs
      obtain ⟨s', h1, h2, _⟩ := lookup_some ((hk.2 n).1 (List.mem_reverse.1 hn))
      rw [h1] at hs; injection hs with hs; rw [← hs]; exact h2
    refine ⟨_, rfl, fun n => ?_⟩
    rw [resolveOrdered_plain fromStyle withParent scale hno hsub, resolvePlain_get]
    -- names are distinct, so both lists hold the same single style of that name
    have hnodup : (styles.map (·.name)).Nodup := by
      have hsubs : (keys styles) = styles.map (·.name) := by
        have aux : ∀ (l : List (Style B)) (acc : List Str),
            (l.foldl (fun acc s => if acc.contains s.name then acc else acc ++ [s.name]) acc).length
              = acc.length + l.length →
            l.foldl (fun acc s => if acc.contains s.name then acc else acc ++ [s.name]) acc
              = acc ++ l.map (·.name) := by
          intro l
          induction l with
          | nil => intro acc _; simp
          | cons s l ih =>
            intro acc h
            have hle : ∀ (l : List (Style B)) (acc : List Str),
                (l.foldl (fun acc s => if acc.contains s.name then acc else acc ++ [s.name]) acc).length
                  ≤ acc.length + l.length := by
              intro l
              induction l with
              | nil => intro acc; simp
              | cons s l ih =>
                intro acc
                simp only [List.foldl_cons]
                split
                · have := ih acc; simp only [List.length_cons]; omega
                · have := ih (acc ++ [s.name])
                  simp only [List.length_append, List.length_cons, List.length_nil] at *; omega
            simp only [List.foldl_cons] at h ⊢
            by_cases hc : acc.contains s.name
            · rw [if_pos hc] at h
              have := hle l acc
              simp only [List.length_cons] at h
              omega
            · rw [if_neg hc] at h ⊢
              rw [ih _ (by rw [h]; simp; omega)]
              simp
        simpa [keys] using aux styles [] (by simpa [keys] using hlen)
      rw [← hsubs]; exact hk.1
    have huniq : ∀ s ∈ styles, ∀ t ∈ styles, s.name = t.name → s = t := by
      intro s hs t ht e
      have : ∀ (l : List (Style B)), (l.map (·.name)).Nodup → ∀ s ∈ l, ∀ t ∈ l, s.name = t.name → s = t := by
        intro l
        induction l with
        | nil => intro _ s hs; simp at hs
        | cons a l ih =>
          intro hn s hs t ht e
          simp only [List.map_cons, List.nodup_cons, List.mem_map, not_exists, not_and] at hn
          rcases List.mem_cons.1 hs with rfl | hs'
          · rcases List.mem_cons.1 ht with rfl | ht
            · rfl
            · exact absurd e.symm (hn.1 t ht)
          · rcases List.mem_cons.1 ht with rfl | ht
            · exact absurd e (hn.1 s hs')
            · exact ih hn.2 s hs' t ht e
      exact this styles hnodup s hs t ht e
    -- each side is determined by membership
    have side : ∀ (L : List (Style B)), (∀ s ∈ L, s ∈ styles) →
        ∀ r, (L.filterMap (fun s => if s.name = n then fromStyle s else none)).getLast? = some r ↔
          ∃ s ∈ L, s.name = n ∧ fromStyle s = some r := by
      intro L hL r
      constructor
      · intro h
        have := List.mem_of_getLast? h
        rw [List.mem_filterMap] at this
        obtain ⟨s, hs, e⟩ := this
        split at e
        · next hn => exact ⟨s, hs, hn, e⟩
        · simp at e
      · rintro ⟨s, hs, hn, e⟩
        have hm : r ∈ L.filterMap (fun s => if s.name = n then fromStyle s else none) := by
          rw [List.mem_filterMap]; exact ⟨s, hs, by simp [hn, e]⟩
        have hne : L.filterMap (fun s => if s.name = n then fromStyle s else none) ≠ [] := by
          intro h0; rw [h0] at hm; simp at hm
        rw [List.getLast?_eq_some_getLast hne]
        have := List.getLast_mem hne
        rw [List.mem_filterMap] at this
        obtain ⟨t, ht, et⟩ := this
        split at et
        · next hn' =>
          have : t = s := huniq t (hL t ht) s (hL s hs) (hn'.trans hn.symm)
          rw [this, e] at et
          exact et.symm
        · exact absurd et (by simp only [reduceCtorEq, not_false_eq_true])
    congr 1
    apply Option.ext
    intro r
    rw [side l hsub r, side styles (fun _ h => h) r]
    constructor
    · rintro ⟨s, hs, h⟩; exact ⟨s, hsub s hs, h⟩
    · rintro ⟨s, hs, hn, h⟩
      refine ⟨s, ?_, hn, h⟩
      rw [hl, List.mem_filterMap]
      refine ⟨s.name, List.mem_reverse.2 ((hk.2 _).2 ⟨s, hs, rfl⟩), ?_⟩
      obtain ⟨s', h1, h2, h3⟩ := lookup_some (styles := styles) (n := s.name) ⟨s, hs, rfl⟩
      rw [h1, huniq s' h2 s hs h3]

/-- The font-size rule on its own: `from_style` needs a value (from_style.rs line 50), the inheriting
rule takes the parent's when it is left out (inheritance.rs lines 41-43). -/
def sizeFrom (s : Style (Option Nat)) : Option Nat := s.body
def sizeWith (s : Style (Option Nat)) (p : Nat) : Option Nat := some (s.body.getD p)

/-- **C23, disagreement.** Inheritance is not applied, not even for one style with one parent: the child
that leaves its font size to the parent does not get it (it is dropped altogether). -/
theorem C23_inheritance_violated :
    ¬ ∀ (styles : List (Style (Option Nat))) (res : Map Str Nat), ¬ Circular styles →
        (styles.map (·.name)).Nodup → analyze sizeFrom sizeWith id styles = some res →
        InheritanceApplied sizeFrom sizeWith styles res := by
  intro h
  let base : Style (Option Nat) := ⟨['b'], none, some 20⟩
  let kid : Style (Option Nat) := ⟨['k'], some ['b'], none⟩
  have hc : ¬ Circular [base, kid] := by
    obtain ⟨b, hb, hiff⟩ := hasCycle_iff [base, kid]
    have : b = false := by
      have h2 : hasCycle (parents [base, kid]) ((keys [base, kid]).length + 1) (keys [base, kid]) ([], []) =
          some false := by decide
      rw [h2] at hb; injection hb with hb; exact hb.symm
    intro hcirc
    rw [this] at hiff
    exact absurd (hiff.2 hcirc) (by simp)
  have ha : analyze sizeFrom sizeWith id [base, kid] = some [(['b'], 20)] := by decide
  have := (h [base, kid] _ hc (by decide) ha kid (by simp)).1 ['b'] rfl ⟨base, by simp, rfl⟩
  obtain ⟨pr, h1, h2⟩ := this
  have : Map.get [(['b'], 20)] ['k'] = (none : Option Nat) := by decide
  simp only [kid] at h2
  rw [this] at h2
  simp [sizeWith] at h2

/-- **C23, partial.** In a section where no style names an existing parent and names are distinct, every
style resolves on its own, as the property asks.  Missing: every section with an existing parent. -/
theorem C23_no_parent_partial (fromStyle : Style B → Option R) (withParent : Style B → R → Option R)
    (styles : List (Style B)) (hn : (styles.map (·.name)).Nodup) (hno : NoLinks styles) :
    ∃ res, analyze fromStyle withParent id styles = some res ∧
      InheritanceApplied fromStyle withParent styles res := by
  obtain ⟨res, h1, h2⟩ := C23_never_inherits fromStyle withParent id styles
  refine ⟨res, h1, ?_⟩
  intro s hs
  refine ⟨fun p hp hq => absurd hq (hno s hs p hp), fun _ => ?_⟩
  rw [h2]
  have : ∀ (l : List (Style B)), (l.map (·.name)).Nodup → s ∈ l →
      l.filterMap (fun t => if t.name = s.name then fromStyle t else none) = (fromStyle s).toList := by
    intro l
    induction l with
    | nil => intro _ h; simp at h
    | cons a l ih =>
      intro hn hs
      simp only [List.map_cons, List.nodup_cons, List.mem_map, not_exists, not_and] at hn
      rcases List.mem_cons.1 hs with rfl | hs
      · have hnil : l.filterMap (fun t => if t.name = s.name then fromStyle t else none) = [] := by
          rw [List.filterMap_eq_nil_iff]
          intro t ht
          rw [if_neg (hn.1 t ht)]
        rw [List.filterMap_cons, if_pos rfl, hnil]
        cases fromStyle s <;> rfl
      · rw [List.filterMap_cons, if_neg (fun e => hn.1 s hs e.symm), ih hn.2 hs]
  rw [this styles hn hs]
  cases fromStyle s <;> simp

example : NoLinks [(⟨['a'], none, some 3⟩ : Style (Option Nat)), ⟨['b'], some ['x'], some 4⟩] := by
  intro s hs p hp
  simp at hs
  rcases hs with rfl | rfl
  · simp at hp
  · simp at hp; subst hp; simp

end Verif.Props
