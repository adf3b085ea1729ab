import Verif.Spec.Plugin
import Verif.Lemmas.Map
/-!
# C157: effect plugins and their parameters
-/
namespace Verif.Props.Plugin
open Verif Verif.Plugin
open Verif.Spec.Plugin

theorem snoc_ind {α : Type} {P : List α → Prop} (h0 : P []) (h1 : ∀ l a, P l → P (l ++ [a])) (l : List α) : P l := by
  have : ∀ r : List α, P r.reverse := by
    intro r
    induction r with
    | nil => exact h0
    | cons a r ih => rw [List.reverse_cons]; exact h1 _ a ih
  have h := this l.reverse
  rwa [List.reverse_reverse] at h

/-- The last of `l ++ [c]` that satisfies a condition. -/
theorem last_snoc {α : Type} {l : List α} {c x : α} {Q : α → Prop} :
    (∃ a b, l ++ [c] = a ++ x :: b ∧ ∀ y ∈ b, Q y) ↔ c = x ∨ (Q c ∧ ∃ a b, l = a ++ x :: b ∧ ∀ y ∈ b, Q y) := by
  constructor
  · rintro ⟨a, b, e, h⟩
    rcases List.eq_nil_or_concat b with rfl | ⟨b', z, rfl⟩
    · have := List.append_inj_right' (t₁ := [c]) (t₂ := [x]) e rfl
      injection this with this
      exact .inl this
    · have e2 : l ++ [c] = (a ++ x :: b') ++ [z] := by rw [e]; simp
      have h1 := List.append_inj_left' e2 rfl
      have h2 := List.append_inj_right' e2 rfl
      injection h2 with h2
      subst h2
      exact .inr ⟨h c (by simp), a, b', h1, fun y hy => h y (by simp [hy])⟩
  · rintro (rfl | ⟨hc, a, b, rfl, h⟩)
    · exact ⟨l, [], rfl, by simp⟩
    · refine ⟨a, b ++ [c], by simp, fun y hy => ?_⟩
      rcases List.mem_append.1 hy with hy | hy
      · exact h y hy
      · rw [List.mem_singleton.1 hy]; exact hc

/-- **C157.**  Asking for an effect gives the one registered last under this name, if it has not been taken away since,
and otherwise nothing. -/
theorem C157_get (cs : List Call) (name : Str) (e : Effect) :
    getEffect (history cs) name = some e ↔ e.name = name ∧ InForce cs e := by
  induction cs using snoc_ind with
  | h0 =>
    constructor
    · intro h; cases h
    · rintro ⟨_, a, b, h, _⟩
      cases a <;> cases h
  | h1 cs c ih =>
    have hs : InForce (cs ++ [c]) e ↔ c = .register e ∨ (¬ Replaces e.name c ∧ InForce cs e) :=
      last_snoc (Q := fun c => ¬ Replaces e.name c)
    have hh : history (cs ++ [c]) = call (history cs) c := by unfold history; simp
    rw [hs, hh]
    unfold getEffect at ih ⊢
    cases c with
    | register e' =>
      simp only [call, register, Map.get_insert, Call.register.injEq, Replaces]
      by_cases h : name = e'.name
      · rw [if_pos h]
        constructor
        · intro h2; injection h2 with h2; subst h2; exact ⟨h.symm, .inl rfl⟩
        · rintro ⟨h1, rfl | ⟨h2, _⟩⟩
          · rfl
          · exact absurd (h1.trans h).symm h2
      · rw [if_neg h, ih]
        constructor
        · rintro ⟨h1, h2⟩; exact ⟨h1, .inr ⟨fun e2 => h (h1.symm.trans e2.symm), h2⟩⟩
        · rintro ⟨h1, rfl | ⟨_, h2⟩⟩
          · exact absurd h1.symm h
          · exact ⟨h1, h2⟩
    | unregister n =>
      simp only [call, unregister, Map.get_erase, reduceCtorEq, false_or, Replaces]
      by_cases h : name = n
      · rw [if_pos h]
        constructor
        · intro h2; cases h2
        · rintro ⟨h1, h2, _⟩; exact absurd (h1.trans h).symm h2
      · rw [if_neg h, ih]
        constructor
        · rintro ⟨h1, h2⟩; exact ⟨h1, fun e2 => h (h1.symm.trans e2.symm), h2⟩
        · rintro ⟨h1, _, h2⟩; exact ⟨h1, h2⟩
    | clear =>
      simp [call, clear, Replaces]

theorem history_wf (cs : List Call) : (history cs).WF := by
  induction cs using snoc_ind with
  | h0 => exact Map.wf_nil
  | h1 cs c ih =>
    have hh : history (cs ++ [c]) = call (history cs) c := by unfold history; simp
    rw [hh]
    cases c with
    | register e => exact Map.wf_insert ih _ _
    | unregister n => exact Map.wf_erase ih _
    | clear => exact Map.wf_nil

/-- **C157.**  The list gives the name of every effect in force, once, and no other. -/
theorem C157_list (cs : List Call) :
    (listEffects (history cs)).Nodup ∧ ∀ name, name ∈ listEffects (history cs) ↔ ∃ e, e.name = name ∧ InForce cs e := by
  refine ⟨history_wf cs, fun name => ?_⟩
  unfold listEffects
  constructor
  · intro h
    obtain ⟨⟨k, e⟩, hm, rfl⟩ := List.mem_map.1 h
    exact ⟨e, (C157_get cs k e).1 (Map.get_of_mem (history_wf cs) hm)⟩
  · rintro ⟨e, h⟩
    exact List.mem_map.2 ⟨(name, e), Map.mem_of_get ((C157_get cs name e).2 h), rfl⟩

/-- **C157.**  Taking an effect away gives it back, if there was one under this name. -/
theorem C157_unregister (cs : List Call) (name : Str) (e : Effect) :
    (unregister (history cs) name).1 = some e ↔ e.name = name ∧ InForce cs e := C157_get cs name e

/-- Two effects of the same name, one of another name, one taken away. -/
example : InForce [.register (glow 1), .register { glow 2 with version := ['2'] }, .unregister "Blur".toList] { glow 2 with version := ['2'] } ∧
    ¬ ∃ e, e.name = "Glow".toList ∧ InForce [.register (glow 1), .clear] e := by
  refine ⟨⟨[.register (glow 1)], [.unregister "Blur".toList], rfl, ?_⟩, ?_⟩
  · intro c hc
    rw [List.mem_singleton.1 hc]
    unfold Replaces glow
    decide
  · rintro ⟨e, he⟩
    have := (C157_get _ _ e).2 he
    cases this

theorem last_given (strength : Rat) (ss : List (Str × Value)) (key : Str) (v : Value) :
    (Params.history strength ss).custom.get key = some v ↔ LastGiven ss key v := by
  induction ss using snoc_ind with
  | h0 =>
    constructor
    · intro h; cases h
    · rintro ⟨a, b, h, _⟩
      cases a <;> cases h
  | h1 ss s ih =>
    have hs : LastGiven (ss ++ [s]) key v ↔ s = (key, v) ∨ (s.1 ≠ key ∧ LastGiven ss key v) :=
      last_snoc (Q := fun s : Str × Value => s.1 ≠ key)
    have hh : Params.history strength (ss ++ [s]) = (Params.history strength ss).set s.1 s.2 := by unfold Params.history; simp
    rw [hs, hh]
    obtain ⟨k, w⟩ := s
    simp only [Params.set, Map.get_insert, Prod.mk.injEq]
    by_cases h : key = k
    · subst h
      simp
    · rw [if_neg h, ih]
      constructor
      · intro h2; exact .inr ⟨fun e => h e.symm, h2⟩
      · rintro (⟨h2, _⟩ | ⟨_, h2⟩)
        · exact absurd h2.symm h
        · exact h2

/-- **C157.**  A parameter has the value last given to it; asked for as a number, a whole number or a colour, it is given
only if the value is of this kind; the strength stays. -/
theorem C157_params (strength : Rat) (ss : List (Str × Value)) (key : Str) :
    (Params.history strength ss).strength = strength ∧
    (∀ v, (Params.history strength ss).get key = some v ↔ LastGiven ss key v) ∧
    (∀ f, (Params.history strength ss).getFloat key = some f ↔ LastGiven ss key (.float f)) ∧
    (∀ i, (Params.history strength ss).getInt key = some i ↔ LastGiven ss key (.integer i)) ∧
    (∀ r g b a, (Params.history strength ss).getColor key = some (r, g, b, a) ↔ LastGiven ss key (.color r g b a)) := by
  have hl := last_given strength ss key
  refine ⟨?_, hl, fun f => ?_, fun i => ?_, fun r g b a => ?_⟩
  · induction ss using snoc_ind with
    | h0 => rfl
    | h1 ss s ih =>
      have hh : Params.history strength (ss ++ [s]) = (Params.history strength ss).set s.1 s.2 := by unfold Params.history; simp
      rw [hh]
      exact ih (last_given strength ss key)
  all_goals
    rw [← hl]
    simp only [Params.getFloat, Params.getInt, Params.getColor]
    cases (Params.history strength ss).custom.get key with
    | none => simp
    | some v => cases v <;> simp

example : LastGiven [(['r'], .integer 3), (['r'], .float 2), (['c'], .color 1 2 3 4)] ['r'] (.float 2) :=
  ⟨[(['r'], .integer 3)], [(['c'], .color 1 2 3 4)], rfl, by simp⟩

/-- **C157, violated.**  The glow effect changes nothing: it takes any picture, radius and strength, says it has succeeded
and leaves every pixel as it was. -/
theorem C157_glow_violated (radius : Rat) (pixels : List Nat) (width height : Nat) (p : Params) :
    (glow radius).apply pixels width height p = some pixels := rfl

end Verif.Props.Plugin
