import Verif.Spec.Registry
import Verif.Lemmas.Map
import Verif.Lemmas.Override
namespace Verif.Registry
open Verif Verif.Spec.Reg

theorem snocInd {α : Type _} {P : List α → Prop} (h0 : P []) (h1 : ∀ l x, P l → P (l ++ [x])) (l : List α) : P l := by
  have : ∀ k : List α, P k.reverse := by
    intro k
    induction k with
    | nil => exact h0
    | cons x k ih => rw [List.reverse_cons]; exact h1 _ _ ih
  have := this l.reverse
  rwa [List.reverse_reverse] at this

/-! ## One slot -/

section Slot
variable {O V : Type} (adds : O → Option V) (drops : O → Bool)

/-- What a call does to the slot of one name. -/
def slot (s : Option V) (o : O) : Option V :=
  if drops o then none else match s with
    | some v => some v
    | none => adds o

theorem slot_run (ops : List O) (v : V) :
    ops.foldl (slot adds drops) none = some v ↔
    ∃ a b o post, ops = a ++ b ++ o :: post ∧ adds o = some v ∧ drops o = false ∧
      (a = [] ∨ ∃ a' x, a = a' ++ [x] ∧ drops x = true) ∧
      (∀ x ∈ b, drops x = true ∨ adds x = none) ∧ (∀ x ∈ post, drops x = false) := by
  constructor
  · have key : (ops.foldl (slot adds drops) none = none →
        ∃ a b, ops = a ++ b ∧ (a = [] ∨ ∃ a' x, a = a' ++ [x] ∧ drops x = true) ∧
          (∀ x ∈ b, drops x = true ∨ adds x = none)) ∧
        (∀ v, ops.foldl (slot adds drops) none = some v →
          ∃ a b o post, ops = a ++ b ++ o :: post ∧ adds o = some v ∧ drops o = false ∧
            (a = [] ∨ ∃ a' x, a = a' ++ [x] ∧ drops x = true) ∧
            (∀ x ∈ b, drops x = true ∨ adds x = none) ∧ (∀ x ∈ post, drops x = false)) := by
      induction ops using snocInd with
      | h0 => exact ⟨fun _ => ⟨[], [], rfl, .inl rfl, by simp⟩, by simp⟩
      | h1 l x ih =>
        rw [List.foldl_append, List.foldl_cons, List.foldl_nil]
        by_cases hd : drops x = true
        · constructor
          · intro _
            exact ⟨l ++ [x], [], by simp, .inr ⟨l, x, rfl, hd⟩, by simp⟩
          · intro w hw; simp [slot, hd] at hw
        · have hd' : drops x = false := by simpa using hd
          cases hs : l.foldl (slot adds drops) none with
          | none =>
            obtain ⟨a, b, e, ha, hb⟩ := ih.1 hs
            constructor
            · intro hn
              simp only [slot, hd', Bool.false_eq_true, if_false] at hn
              refine ⟨a, b ++ [x], by simp [e], ha, ?_⟩
              intro y hy
              rcases List.mem_append.1 hy with h | h
              · exact hb y h
              · rw [List.mem_singleton.1 h]; exact .inr hn
            · intro w hw
              simp only [slot, hd', Bool.false_eq_true, if_false] at hw
              exact ⟨a, b, x, [], by simp [e], hw, hd', ha, hb, by simp⟩
          | some u =>
            constructor
            · intro hn; simp [slot, hd'] at hn
            · intro w hw
              simp only [slot, hd', Bool.false_eq_true, if_false, Option.some.injEq] at hw
              obtain ⟨a, b, o, post, e, h1, h2, h3, h4, h5⟩ := ih.2 u hs
              refine ⟨a, b, o, post ++ [x], by simp [e], by rw [h1, hw], h2, h3, h4, ?_⟩
              intro y hy
              rcases List.mem_append.1 hy with h | h
              · exact h5 y h
              · rw [List.mem_singleton.1 h]; exact hd'
    exact key.2 v
  · rintro ⟨a, b, o, post, rfl, h1, h2, h3, h4, h5⟩
    have ha : a.foldl (slot adds drops) none = none := by
      rcases h3 with rfl | ⟨a', x, rfl, hx⟩
      · rfl
      · rw [List.foldl_append, List.foldl_cons, List.foldl_nil]; simp [slot, hx]
    have hb : ∀ b : List O, (∀ x ∈ b, drops x = true ∨ adds x = none) → b.foldl (slot adds drops) none = none := by
      intro b
      induction b with
      | nil => intro _; rfl
      | cons x b ih =>
        intro h
        rw [List.foldl_cons]
        have : slot adds drops none x = none := by
          rcases h x (by simp) with h | h <;> simp [slot, h]
        rw [this]
        exact ih (fun y hy => h y (by simp [hy]))
    have hp : ∀ post : List O, (∀ x ∈ post, drops x = false) → post.foldl (slot adds drops) (some v) = some v := by
      intro post
      induction post with
      | nil => intro _; rfl
      | cons x b ih =>
        intro h
        rw [List.foldl_cons]
        have : slot adds drops (some v) x = some v := by simp [slot, h x (by simp)]
        rw [this]
        exact ih (fun y hy => h y (by simp [hy]))
    rw [List.foldl_append, List.foldl_append, ha, hb b h4, List.foldl_cons]
    have : slot adds drops none o = some v := by simp [slot, h2, h1]
    rw [this, hp post h5]
end Slot

/-- What a call registers under a tag name. -/
def addsT (n : Str) : Op → Option Tag
  | .addTag h => if h.name = n then some h else none
  | _ => none

/-- Whether a call takes a tag name away. -/
def dropsT (n : Str) : Op → Bool
  | .dropTag m => m = n
  | .clear => true
  | _ => false

/-- What a call registers under a section name. -/
def addsS (n : Str) : Op → Option Sec
  | .addSec h => if h.name = n then some h else none
  | _ => none

/-- Whether a call takes a section name away. -/
def dropsS (n : Str) : Op → Bool
  | .dropSec m => m = n
  | .clear => true
  | _ => false

theorem has_false {K V : Type} [DecidableEq K] {m : Map K V} {k : K} : Map.has m k = false ↔ Map.get m k = none := by
  unfold Map.has
  cases Map.get m k <;> simp

theorem step_tag (n : Str) (r : Reg) (o : Op) :
    Map.get (step r o).tags n = slot (addsT n) (dropsT n) (Map.get r.tags n) o := by
  cases o with
  | addTag h =>
    show Map.get (registerTag h r).2.tags n = _
    unfold registerTag
    cases hh : Map.has r.tags h.name
    · simp only [Bool.false_eq_true, if_false]
      rw [Map.get_insert]
      by_cases e : h.name = n
      · subst e
        simp [slot, addsT, dropsT, has_false.1 hh]
      · rw [if_neg (fun h' => e h'.symm)]
        cases Map.get r.tags n <;> simp [slot, addsT, dropsT, e]
    · simp only [if_true]
      obtain ⟨v, hv⟩ := Map.has_iff.1 hh
      by_cases e : h.name = n
      · subst e
        simp [slot, dropsT, hv]
      · cases Map.get r.tags n <;> simp [slot, addsT, dropsT, e]
  | addSec p =>
    have : (step r (.addSec p)).tags = r.tags := by
      show (registerSec p r).2.tags = _
      unfold registerSec
      cases Map.has r.secs p.name <;> simp
    rw [this]
    cases Map.get r.tags n <;> simp [slot, addsT, dropsT]
  | dropTag m =>
    show Map.get (Map.erase r.tags m) n = _
    rw [Map.get_erase]
    by_cases e : n = m
    · subst e; simp [slot, dropsT]
    · have e' : ¬ m = n := fun h => e h.symm
      cases Map.get r.tags n <;> simp [slot, addsT, dropsT, e, e']
  | dropSec m =>
    show Map.get r.tags n = _
    cases Map.get r.tags n <;> simp [slot, addsT, dropsT]
  | clear => simp [step, clear, slot, dropsT]

theorem step_sec (n : Str) (r : Reg) (o : Op) :
    Map.get (step r o).secs n = slot (addsS n) (dropsS n) (Map.get r.secs n) o := by
  cases o with
  | addSec h =>
    show Map.get (registerSec h r).2.secs n = _
    unfold registerSec
    cases hh : Map.has r.secs h.name
    · simp only [Bool.false_eq_true, if_false]
      rw [Map.get_insert]
      by_cases e : h.name = n
      · subst e
        simp [slot, addsS, dropsS, has_false.1 hh]
      · rw [if_neg (fun h' => e h'.symm)]
        cases Map.get r.secs n <;> simp [slot, addsS, dropsS, e]
    · simp only [if_true]
      obtain ⟨v, hv⟩ := Map.has_iff.1 hh
      by_cases e : h.name = n
      · subst e
        simp [slot, dropsS, hv]
      · cases Map.get r.secs n <;> simp [slot, addsS, dropsS, e]
  | addTag p =>
    have : (step r (.addTag p)).secs = r.secs := by
      show (registerTag p r).2.secs = _
      unfold registerTag
      cases Map.has r.tags p.name <;> simp
    rw [this]
    cases Map.get r.secs n <;> simp [slot, addsS, dropsS]
  | dropSec m =>
    show Map.get (Map.erase r.secs m) n = _
    rw [Map.get_erase]
    by_cases e : n = m
    · subst e; simp [slot, dropsS]
    · have e' : ¬ m = n := fun h => e h.symm
      cases Map.get r.secs n <;> simp [slot, addsS, dropsS, e, e']
  | dropTag m =>
    show Map.get r.secs n = _
    cases Map.get r.secs n <;> simp [slot, addsS, dropsS]
  | clear => simp [step, clear, slot, dropsS]

theorem run_tag (n : Str) (ops : List Op) :
    Map.get (run ops).tags n = ops.foldl (slot (addsT n) (dropsT n)) none := by
  have : ∀ r, Map.get (ops.foldl step r).tags n = ops.foldl (slot (addsT n) (dropsT n)) (Map.get r.tags n) := by
    induction ops with
    | nil => intro r; rfl
    | cons o l ih => intro r; rw [List.foldl_cons, List.foldl_cons, ih, step_tag]
  exact this new

theorem run_sec (n : Str) (ops : List Op) :
    Map.get (run ops).secs n = ops.foldl (slot (addsS n) (dropsS n)) none := by
  have : ∀ r, Map.get (ops.foldl step r).secs n = ops.foldl (slot (addsS n) (dropsS n)) (Map.get r.secs n) := by
    induction ops with
    | nil => intro r; rfl
    | cons o l ih => intro r; rw [List.foldl_cons, List.foldl_cons, ih, step_sec]
  exact this new

theorem dropsT_iff {n : Str} {o : Op} : dropsT n o = true ↔ DropsTag n o := by
  cases o <;> simp [dropsT, DropsTag]

theorem dropsS_iff {n : Str} {o : Op} : dropsS n o = true ↔ DropsSec n o := by
  cases o <;> simp [dropsS, DropsSec]

theorem addsT_none {n : Str} {o : Op} : addsT n o = none ↔ ¬ AddsTag n o := by
  cases o <;> simp [addsT, AddsTag]

theorem addsS_none {n : Str} {o : Op} : addsS n o = none ↔ ¬ AddsSec n o := by
  cases o <;> simp [addsS, AddsSec]

theorem addsT_some {n : Str} {o : Op} {h : Tag} : addsT n o = some h ↔ o = .addTag h ∧ h.name = n := by
  cases o with
  | addTag k =>
    by_cases e : k.name = n
    · simp only [addsT, e, if_true, Option.some.injEq, Op.addTag.injEq]
      constructor
      · rintro rfl; exact ⟨rfl, e⟩
      · exact fun h => h.1
    · simp only [addsT, e, if_false, Op.addTag.injEq]
      constructor
      · intro h; cases h
      · rintro ⟨rfl, h⟩; exact absurd h e
  | _ => simp [addsT]

theorem addsS_some {n : Str} {o : Op} {h : Sec} : addsS n o = some h ↔ o = .addSec h ∧ h.name = n := by
  cases o with
  | addSec k =>
    by_cases e : k.name = n
    · simp only [addsS, e, if_true, Option.some.injEq, Op.addSec.injEq]
      constructor
      · rintro rfl; exact ⟨rfl, e⟩
      · exact fun h => h.1
    · simp only [addsS, e, if_false, Op.addSec.injEq]
      constructor
      · intro h; cases h
      · rintro ⟨rfl, h⟩; exact absurd h e
  | _ => simp [addsS]

theorem tag_current (ops : List Op) (n : Str) (h : Tag) :
    Map.get (run ops).tags n = some h ↔ h.name = n ∧ CurrentTag ops h := by
  rw [run_tag, slot_run]
  constructor
  · rintro ⟨a, b, o, post, e, h1, h2, h3, h4, h5⟩
    obtain ⟨rfl, rfl⟩ := addsT_some.1 h1
    refine ⟨rfl, a, b, post, e, ?_, ?_, ?_⟩
    · rcases h3 with h3 | ⟨a', x, h3, h3'⟩
      · exact .inl h3
      · exact .inr ⟨a', x, h3, dropsT_iff.1 h3'⟩
    · intro x hx ha
      rcases h4 x hx with h | h
      · obtain ⟨k, rfl, _⟩ := ha
        simp [dropsT] at h
      · exact addsT_none.1 h ha
    · intro x hx hd
      have := h5 x hx
      rw [dropsT_iff.2 hd] at this
      cases this
  · rintro ⟨rfl, a, b, post, e, h3, h4, h5⟩
    refine ⟨a, b, _, post, e, addsT_some.2 ⟨rfl, rfl⟩, rfl, ?_, ?_, ?_⟩
    · rcases h3 with h3 | ⟨a', x, h3, h3'⟩
      · exact .inl h3
      · exact .inr ⟨a', x, h3, dropsT_iff.2 h3'⟩
    · exact fun x hx => .inr (addsT_none.2 (h4 x hx))
    · intro x hx
      cases hd : dropsT h.name x
      · rfl
      · exact absurd (dropsT_iff.1 hd) (h5 x hx)

theorem sec_current (ops : List Op) (n : Str) (h : Sec) :
    Map.get (run ops).secs n = some h ↔ h.name = n ∧ CurrentSec ops h := by
  rw [run_sec, slot_run]
  constructor
  · rintro ⟨a, b, o, post, e, h1, h2, h3, h4, h5⟩
    obtain ⟨rfl, rfl⟩ := addsS_some.1 h1
    refine ⟨rfl, a, b, post, e, ?_, ?_, ?_⟩
    · rcases h3 with h3 | ⟨a', x, h3, h3'⟩
      · exact .inl h3
      · exact .inr ⟨a', x, h3, dropsS_iff.1 h3'⟩
    · intro x hx ha
      rcases h4 x hx with h | h
      · obtain ⟨k, rfl, _⟩ := ha
        simp [dropsS] at h
      · exact addsS_none.1 h ha
    · intro x hx hd
      have := h5 x hx
      rw [dropsS_iff.2 hd] at this
      cases this
  · rintro ⟨rfl, a, b, post, e, h3, h4, h5⟩
    refine ⟨a, b, _, post, e, addsS_some.2 ⟨rfl, rfl⟩, rfl, ?_, ?_, ?_⟩
    · rcases h3 with h3 | ⟨a', x, h3, h3'⟩
      · exact .inl h3
      · exact .inr ⟨a', x, h3, dropsS_iff.2 h3'⟩
    · exact fun x hx => .inr (addsS_none.2 (h4 x hx))
    · intro x hx
      cases hd : dropsS h.name x
      · rfl
      · exact absurd (dropsS_iff.1 hd) (h5 x hx)

theorem run_snoc (ops : List Op) (o : Op) : run (ops ++ [o]) = step (run ops) o := by
  simp [run, List.foldl_append]

theorem step_wf {r : Reg} (h : Map.WF r.tags ∧ Map.WF r.secs) (o : Op) : Map.WF (step r o).tags ∧ Map.WF (step r o).secs := by
  cases o with
  | addTag k =>
    simp only [step, registerTag]
    cases Map.has r.tags k.name
    · exact ⟨Map.wf_insert h.1 _ _, h.2⟩
    · exact h
  | addSec k =>
    simp only [step, registerSec]
    cases Map.has r.secs k.name
    · exact ⟨h.1, Map.wf_insert h.2 _ _⟩
    · exact h
  | dropTag m => exact ⟨Map.wf_erase h.1 _, h.2⟩
  | dropSec m => exact ⟨h.1, Map.wf_erase h.2 _⟩
  | clear => exact ⟨Map.wf_nil, Map.wf_nil⟩

theorem run_wf (ops : List Op) : Map.WF (run ops).tags ∧ Map.WF (run ops).secs := by
  induction ops using snocInd with
  | h0 => exact ⟨Map.wf_nil, Map.wf_nil⟩
  | h1 l x ih => rw [run_snoc]; exact step_wf ih x

end Verif.Registry
