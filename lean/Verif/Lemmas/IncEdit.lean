import Verif.Spec.IncEdit
import Verif.Spec.DocEdit
import Verif.Lemmas.Doc
import Verif.Lemmas.Bytes
import Verif.Lemmas.ParserMain
import Verif.Lemmas.UpdateX
import Verif.Lemmas.DocEdit
import Verif.Lemmas.Script
/-!
# Lemmas about incremental edits
-/
namespace Verif.IncEdit
open Verif
open Verif.Pos
open Verif.Doc
open Verif.Update (kind deltaOld sameContent sameContent_iff kind_eq says_kind)
open Verif.Parser (Script Section parse parse_total)
open Verif.DeltaApply (Delta)
open Verif.Spec.Script (size)
open Verif.Spec.Incremental (feeds)
open Verif.Spec.Update (kindOf says)
open Verif.Spec.IncEdit

theorem place_eq (a m : Str) : place a m = ⟨byteLen a, byteLen a + byteLen m⟩ := rfl

theorem cut_take {s : Str} {n : Nat} : Cut s n ↔ ∃ p, takeBytes s n = some p := by
  constructor
  · rintro ⟨p, q, h1, h2⟩
    exact ⟨p, takeBytes_iff.2 ⟨q, h1, h2⟩⟩
  · rintro ⟨p, h⟩
    obtain ⟨q, h1, h2⟩ := takeBytes_iff.1 h
    exact ⟨p, q, h1, h2⟩

theorem cut_drop {s : Str} {n : Nat} : Cut s n ↔ ∃ q, dropBytes s n = some q := by
  constructor
  · rintro ⟨p, q, h1, h2⟩
    exact ⟨q, dropBytes_iff.2 ⟨p, h1, h2⟩⟩
  · rintro ⟨q, h⟩
    obtain ⟨p, h1, h2⟩ := dropBytes_iff.1 h
    exact ⟨p, q, h1, h2⟩

theorem cut_bound {s : Str} {n : Nat} : boundary s n = true ↔ Cut s n := by
  unfold boundary
  rw [Option.isSome_iff_exists, cut_take]

theorem cut_at (a m b : Str) : Cut (a ++ m ++ b) (place a m).start ∧ Cut (a ++ m ++ b) (place a m).fin :=
  ⟨⟨a, m ++ b, by rw [List.append_assoc], rfl⟩, ⟨a ++ m, b, rfl, byteLen_append a m⟩⟩

theorem modified_none {c : Str} {x y : Nat} {new : Str} : Incremental.modifiedSource c x y new = none ↔ ¬ (Cut c x ∧ Cut c y) := by
  unfold Incremental.modifiedSource
  rw [cut_take, cut_drop]
  cases takeBytes c x <;> cases dropBytes c y <;> simp

theorem modified_at (a m b new : Str) :
    Incremental.modifiedSource (a ++ m ++ b) (place a m).start (place a m).fin new = some (a ++ new ++ b) := by
  unfold Incremental.modifiedSource
  have h1 : takeBytes (a ++ m ++ b) (place a m).start = some a := by rw [List.append_assoc]; exact takeBytes_append a _
  have h2 : dropBytes (a ++ m ++ b) (place a m).fin = some b := by
    have := dropBytes_append (a ++ m) b
    rwa [byteLen_append] at this
  rw [h1, h2]

theorem simple_iff (a m new : Str) : simple (place a m) new = true ↔ Short m new := by
  unfold simple Short
  have h1 : (place a m).len = size m := by show byteLen a + byteLen m - byteLen a = byteLen m; omega
  rw [h1]
  have h2 : feeds new = new.count '\n' := by
    unfold feeds List.count
    rw [List.countP_eq_length_filter]
    congr 2
  rw [h2]
  rw [Bool.and_eq_true, Bool.and_eq_true, Bool.and_eq_true, decide_eq_true_eq, decide_eq_true_eq, decide_eq_true_eq]
  simp only [List.contains_eq_mem, Bool.not_eq_true', decide_eq_false_iff_not, and_assoc]
  exact Iff.rfl

/-- The short way. -/
theorem fast_at (d : IDoc) {a m b : Str} (new : Str) (h : d.text = a ++ m ++ b) :
    fastPath d (place a m) new = (.ok ⟨[], [], []⟩, { text := a ++ new ++ b, cache := d.cache, undo := .text (.replace (place a m) m new) :: d.undo, redo := [] }) := by
  obtain ⟨h1, h2⟩ := cut_at a m b
  rw [← h] at h1 h2
  unfold fastPath
  rw [if_neg (by simp [cut_bound.2 h1, cut_bound.2 h2])]
  have ho : oldText d.text (place a m) = .ok m := by
    unfold oldText
    by_cases he : (place a m).isEmpty = true
    · rw [if_pos he]
      have : byteLen m = 0 := by
        have : byteLen a = byteLen a + byteLen m := eq_of_beq he
        omega
      rw [show m = [] from by
        cases m with
        | nil => rfl
        | cons c m => rw [byteLen_cons] at this; have := Char.utf8Size_pos c; omega]
    · rw [if_neg he, h]
      exact textRange_at a m b
  rw [ho]
  dsimp only
  have hr : replaceRaw d.text (place a m) new = (.ok (), a ++ new ++ b) := by rw [h]; exact replaceRaw_at a m b new
  rw [hr]
  rfl

theorem full_ok (dbg : Section → Str) (c : Cache) (text : Str) : ∃ δ, fullReparse dbg c text = (.ok δ, { c with cached := some text, pending := 0, bytes := 0 }) := by
  obtain ⟨s, hs⟩ := parse_total (src := text)
  unfold fullReparse
  rw [hs]
  simp only [Option.bind_some]
  cases hc : c.cached with
  | none => exact ⟨_, rfl⟩
  | some o =>
    obtain ⟨u, hu⟩ := parse_total (src := o)
    simp only [fullDelta, hu, Option.map_some]
    exact ⟨_, rfl⟩

theorem cached_panic (dbg : Section → Str) (c : Cache) {x : Str} {r : Range} {new : Str} (h : ¬ (Cut x r.start ∧ Cut x r.fin)) :
    applyCached dbg c x r new = (.panic, c) := by
  obtain ⟨s, hs⟩ := parse_total (src := x)
  unfold applyCached parsePartial
  rw [hs]
  dsimp only
  rw [modified_none.2 h]
  rfl

theorem cached_ok (dbg : Section → Str) (c : Cache) {x : Str} {r : Range} {new : Str} (h : Cut x r.start ∧ Cut x r.fin) :
    ∃ δ t, applyCached dbg c x r new = (.ok δ, ⟨some t, c.pending + 1, c.bytes + absDiff (byteLen new) (r.fin - r.start), c.threshold⟩) := by
  obtain ⟨s, hs⟩ := parse_total (src := x)
  cases hm : Incremental.modifiedSource x r.start r.fin new with
  | none => exact absurd h (modified_none.1 hm)
  | some t =>
    unfold applyCached parsePartial updated
    rw [hs]
    dsimp only
    rw [hm]
    exact ⟨_, t, rfl⟩

/-- The two ways of `apply_change` at whole characters. -/
theorem apply_at (dbg : Section → Str) (c : Cache) {a m b : Str} (new : Str) :
    (∀ x, c.cached = some x → c.bytes < c.threshold →
      applyChange dbg c (a ++ m ++ b) (place a m) new = applyCached dbg c x (place a m) new) ∧
    ((c.cached = none ∨ c.bytes ≥ c.threshold) → applyChange dbg c (a ++ m ++ b) (place a m) new = fullReparse dbg c (a ++ m ++ b)) := by
  obtain ⟨h1, h2⟩ := cut_at a m b
  constructor
  · intro x hx hb
    unfold applyChange
    rw [hx]
    dsimp only
    rw [if_neg (by omega), if_neg (by
      show ¬ (byteLen a + byteLen m > byteLen (a ++ m ++ b) ∨ byteLen a > byteLen a + byteLen m)
      rw [byteLen_append, byteLen_append]; omega), if_neg (by rw [cut_bound.2 h1, cut_bound.2 h2]; simp)]
  · intro h
    unfold applyChange
    cases hc : c.cached with
    | none => rfl
    | some x =>
      dsimp only
      rw [hc] at h
      rw [if_pos (by simpa using h)]

theorem again_at (dbg : Section → Str) (c : Cache) {text : Str} {r : Range} {new : Str} (h : (applyChange dbg c text r new).1 ≠ .err) :
    report dbg c text r new = applyChange dbg c text r new := by
  unfold report
  cases hx : applyChange dbg c text r new with
  | mk o c' =>
    rw [hx] at h
    cases o with
    | ok δ => rfl
    | err => exact absurd rfl h
    | panic => rfl

/-- The report of a long edit. -/
theorem report_at (dbg : Section → Str) (c : Cache) (a m b new : Str) :
    (∀ x, c.cached = some x → c.bytes < c.threshold → ¬ (Cut x (size a) ∧ Cut x (size a + size m)) →
      report dbg c (a ++ m ++ b) (place a m) new = (.panic, c)) ∧
    (¬ (∃ x, c.cached = some x ∧ c.bytes < c.threshold ∧ ¬ (Cut x (size a) ∧ Cut x (size a + size m))) →
      ∃ δ c', report dbg c (a ++ m ++ b) (place a m) new = (.ok δ, c')) := by
  obtain ⟨h1, h2⟩ := apply_at dbg c (a := a) (m := m) (b := b) new
  constructor
  · intro x hx hb hn
    have e := h1 x hx hb
    rw [cached_panic dbg c hn] at e
    rw [again_at dbg c (by rw [e]; simp), e]
  · intro h
    by_cases hc : c.cached = none ∨ c.bytes ≥ c.threshold
    · have e := h2 hc
      obtain ⟨δ, hδ⟩ := full_ok dbg c (a ++ m ++ b)
      rw [hδ] at e
      exact ⟨δ, _, by rw [again_at dbg c (by rw [e]; simp), e]⟩
    · obtain ⟨x, hx⟩ := Option.ne_none_iff_exists'.1 (fun hn => hc (.inl hn))
      have hb : c.bytes < c.threshold := by
        have : ¬ c.bytes ≥ c.threshold := fun hg => hc (.inr hg)
        omega
      have hcut : Cut x (size a) ∧ Cut x (size a + size m) := Classical.byContradiction (fun hn => h ⟨x, hx, hb, hn⟩)
      have e := h1 x hx hb
      obtain ⟨δ, t, ht⟩ := cached_ok dbg c (x := x) (r := place a m) (new := new) hcut
      rw [ht] at e
      exact ⟨δ, _, by rw [again_at dbg c (by rw [e]; simp), e]⟩

theorem capture_some (text : Str) (δ : Delta) : ∃ p, capture text δ = some p := by
  unfold capture
  split
  · exact ⟨_, rfl⟩
  · obtain ⟨s, hs⟩ := parse_total (src := text)
    rw [hs]
    exact ⟨_, rfl⟩

/-- The long way. -/
theorem long_at (dbg : Section → Str) (d : IDoc) {a m b : Str} (new : Str) (h : d.text = a ++ m ++ b) :
    longPath dbg d (place a m) new = match report dbg d.cache d.text (place a m) new with
      | (.ok δ, c) => (.ok δ, { text := a ++ new ++ b, cache := c, undo := .delta δ ((capture d.text δ).getD ([], [])).1 ((capture d.text δ).getD ([], [])).2 :: d.undo, redo := [] })
      | (.err, c) => (.err, { d with cache := c })
      | (.panic, c) => (.panic, { d with cache := c }) := by
  unfold longPath
  have ht : textRange d.text (place a m) = .ok m := by rw [h]; exact textRange_at a m b
  rw [ht]
  dsimp only
  cases report dbg d.cache d.text (place a m) new with
  | mk o c =>
    cases o with
    | err => rfl
    | panic => rfl
    | ok δ =>
      dsimp only
      unfold commit
      obtain ⟨p, hp⟩ := capture_some d.text δ
      rw [hp]
      dsimp only [Option.getD_some]
      have hr : replaceRaw d.text (place a m) new = (.ok (), a ++ new ++ b) := by rw [h]; exact replaceRaw_at a m b new
      rw [hr]

theorem diff_eq (a m new : Str) : absDiff (byteLen new) ((place a m).fin - (place a m).start) = change m new := by
  unfold absDiff change
  have : (place a m).fin - (place a m).start = size m := by show byteLen a + byteLen m - byteLen a = byteLen m; omega
  rw [this]
  have : byteLen new = size new := rfl
  rw [this, Nat.max_def, Nat.min_def]
  split <;> omega

/-- A long edit of a document in step. -/
theorem long_step (dbg : Section → Str) (d : IDoc) {a m b : Str} (new : Str) (h : d.text = a ++ m ++ b) (hi : InStep d) {s : Script}
    (hs : parse d.text = some s) :
    ∃ δ, δ = owned dbg (Update.delta s (Incremental.parseIncremental s (a ++ new ++ b) ⟨size a, size a + size m, new⟩)) ∧
      longPath dbg d (place a m) new = (.ok δ, ⟨a ++ new ++ b, ⟨some (a ++ new ++ b), d.cache.pending + 1, d.cache.bytes + change m new, d.cache.threshold⟩,
        .delta δ ((capture d.text δ).getD ([], [])).1 ((capture d.text δ).getD ([], [])).2 :: d.undo, []⟩) := by
  refine ⟨_, rfl, ?_⟩
  have ha : applyChange dbg d.cache d.text (place a m) new = (.ok (owned dbg (Update.delta s (Incremental.parseIncremental s (a ++ new ++ b) ⟨size a, size a + size m, new⟩))),
      ⟨some (a ++ new ++ b), d.cache.pending + 1, d.cache.bytes + change m new, d.cache.threshold⟩) := by
    have := (apply_at dbg d.cache (a := a) (m := m) (b := b) new).1 d.text hi.1 hi.2
    rw [← h] at this
    rw [this]
    unfold applyCached parsePartial updated
    rw [hs]
    dsimp only
    rw [diff_eq, show Incremental.modifiedSource d.text (place a m).start (place a m).fin new = some (a ++ new ++ b) from by rw [h]; exact modified_at a m b new]
    rfl
  rw [long_at dbg d new h, again_at dbg d.cache (by rw [ha]; simp), ha]

/-! ## Reports -/

theorem deltaOld_same {pre old new : List Section} (hk : old.map kindOf = new.map kindOf) (hn : ((pre ++ new).map kindOf).Nodup) (k : Nat) :
    (deltaOld (pre ++ new) k old).2 = [] ∧
    ∀ i, (∃ x, (i, x) ∈ (deltaOld (pre ++ new) k old).1) ↔ ∃ j a b, i = k + j ∧ old[j]? = some a ∧ new[j]? = some b ∧ says a ≠ says b := by
  induction old generalizing pre new k with
  | nil => exact ⟨rfl, fun i => by simp [deltaOld]⟩
  | cons s old ih =>
    cases new with
    | nil => simp at hk
    | cons t new =>
      simp only [List.map_cons, List.cons.injEq] at hk
      have hf : (pre ++ t :: new).find? (fun u => decide (kind u = kind s)) = some t := by
        rw [List.find?_append]
        have : pre.find? (fun u => decide (kind u = kind s)) = none := by
          rw [List.find?_eq_none]
          intro u hu he
          have he : kind u = kind s := by simpa using he
          rw [kind_eq, kind_eq, hk.1] at he
          rw [List.map_append, List.map_cons, List.nodup_append] at hn
          exact hn.2.2 _ (List.mem_map_of_mem hu) _ (by simp) he
        rw [this, List.find?_cons_of_pos (by simp [kind_eq, hk.1])]
        rfl
      have hrest := ih (pre := pre ++ [t]) (new := new) hk.2 (by simpa using hn) (k + 1)
      rw [show pre ++ [t] ++ new = pre ++ t :: new by simp] at hrest
      rw [deltaOld]
      simp only [hf]
      have hsplit : ∀ i, (∃ j a b, i = k + j ∧ (s :: old)[j]? = some a ∧ (t :: new)[j]? = some b ∧ says a ≠ says b) ↔
          (i = k ∧ says s ≠ says t) ∨ ∃ j a b, i = k + 1 + j ∧ old[j]? = some a ∧ new[j]? = some b ∧ says a ≠ says b := by
        intro i
        constructor
        · rintro ⟨j, a, b, h1, h2, h3, h4⟩
          cases j with
          | zero =>
            simp only [List.getElem?_cons_zero, Option.some.injEq] at h2 h3
            subst h2 h3
            exact .inl ⟨by omega, h4⟩
          | succ j => exact .inr ⟨j, a, b, by omega, by simpa using h2, by simpa using h3, h4⟩
        · rintro (⟨h1, h2⟩ | ⟨j, a, b, h1, h2, h3, h4⟩)
          · exact ⟨0, s, t, by omega, rfl, rfl, h2⟩
          · exact ⟨j + 1, a, b, by omega, by simpa using h2, by simpa using h3, h4⟩
      by_cases hsame : sameContent s t = true
      · rw [if_pos hsame]
        refine ⟨hrest.1, fun i => ?_⟩
        rw [hrest.2 i, hsplit i]
        constructor
        · exact .inr
        · rintro (⟨_, h⟩ | h)
          · exact absurd ((sameContent_iff _ _).1 hsame) h
          · exact h
      · rw [if_neg hsame]
        refine ⟨hrest.1, fun i => ?_⟩
        rw [hsplit i, ← hrest.2 i]
        simp only [List.mem_cons, Prod.mk.injEq]
        constructor
        · rintro ⟨x, ⟨h1, _⟩ | h⟩
          · exact .inl ⟨h1, fun h => hsame ((sameContent_iff _ _).2 h)⟩
          · exact .inr ⟨x, h⟩
        · rintro (⟨h1, _⟩ | ⟨x, h⟩)
          · exact ⟨t, .inl ⟨h1, rfl⟩⟩
          · exact ⟨x, .inr h⟩

/-! ## Undo -/

theorem steps_const {α β : Type} (f : Str → Outcome Unit × Str) (l : List α) (l' : List β) (h : l.length = l'.length) (s : Str) :
    steps (fun s _ => f s) l s = steps (fun s _ => f s) l' s := by
  induction l generalizing l' s with
  | nil => cases l' with | nil => rfl | cons => simp at h
  | cons x l ih => cases l' with
    | nil => simp at h
    | cons y l' =>
      rw [steps, steps]
      cases f s with
      | mk o s' =>
        cases o with
        | ok u => exact ih l' (by simpa using h) s'
        | err => rfl
        | panic => rfl

/-- What is kept for undo does not depend on how sections are written. -/
theorem capture_dbg (dbg dbg' : Section → Str) (text : Str) (δ : Update.Delta) : capture text (owned dbg δ) = capture text (owned dbg' δ) := by
  unfold capture few owned
  simp only [List.length_map, List.map_map]
  congr 1

theorem undo_dbg (dbg dbg' : Section → Str) (δ : Update.Delta) (r m : List (Nat × Str)) (s : Str) :
    undoText (.delta (owned dbg δ) r m) s = undoText (.delta (owned dbg' δ) r m) s := by
  unfold undoText
  have : (fun s => steps (fun s _ => removeLast s) (owned dbg δ).added s) = fun s => steps (fun s _ => removeLast s) (owned dbg' δ).added s := by
    funext s
    exact steps_const removeLast _ _ (by simp [owned]) s
  exact congrArg (thenDo (thenDo (steps (fun s p => insertSection s p.1 p.2) r s) (steps (fun s p => replaceSection s p.1 p.2) m))) this

end Verif.IncEdit
