import Verif.Spec.Builders
import Verif.Lemmas.RoundTrip
namespace Verif.Builders
open Verif
open Verif.Ast
open Verif.Spec.Lines
open Verif.Spec.EventCmd (Plain Trimmed White)
open Verif.Spec.Builders (dec yes PlainB eventNames given)

theorem num_eq (x : Option Nat) (d : String) : num x d.toList = dec x d := by
  cases x <;> rfl

theorem digits_plain (n : Nat) : Plain (Nat.toDigits 10 n) := by
  have hd := showNat_digits n
  have hw : ∀ c : Char, c.isDigit = true → ¬ White c := by
    intro c hc hw
    have h1 := (SrtDoc.white_iff c).2 hw
    simp only [Char.isDigit, Bool.and_eq_true, decide_eq_true_eq] at hc
    have h2 : c.toNat ≥ 48 ∧ c.toNat ≤ 57 := by
      obtain ⟨a, b⟩ := hc
      exact ⟨UInt32.le_iff_toNat_le.1 a, UInt32.le_iff_toNat_le.1 b⟩
    unfold isWs at h1
    simp at h1
    omega
  refine ⟨not_isDigit_mem hd (by decide), ?_, ?_⟩
  · intro c hc
    exact hw c (hd c (List.mem_of_mem_head? hc))
  · intro c hc
    exact hw c (hd c (List.mem_of_getLast? hc))

theorem valuesOf_eq {value : Str → Option Str} {g : Str → Str} : ∀ {l : List Str}, (∀ f ∈ l, value f = some (g f)) →
    valuesOf value l = some (l.map g)
  | [], _ => rfl
  | f :: l, h => by
    rw [valuesOf, h f (by simp)]
    simp only
    rw [valuesOf_eq (fun x hx => h x (by simp [hx]))]
    rfl

theorem valuesOf_none {value : Str → Option Str} {f : Str} (hf : value f = none) : ∀ {l : List Str}, f ∈ l → valuesOf value l = none
  | g :: l, h => by
    rw [valuesOf]
    rcases List.mem_cons.1 h with rfl | h
    · rw [hf]
    · cases value g with
      | none => rfl
      | some v => simp only; rw [valuesOf_none hf h]

theorem event_value (b : EventB) {f : Str} (h : f ∈ eventNames) : b.value f = some ((Spec.Builders.event b).value f) := by
  simp only [eventNames, eventFields, eventOptions, List.map_cons, List.map_nil, List.cons_append, List.nil_append, List.mem_cons,
    List.not_mem_nil, or_false] at h
  rcases h with rfl | rfl | rfl | rfl | rfl | rfl | rfl | rfl | rfl | rfl | rfl | rfl | rfl
  · rfl
  · rfl
  · show some _ = some _; rw [show (['0'] : Str) = "0".toList from rfl, num_eq]; rfl
  · rfl
  · rfl
  · rfl
  · rfl
  · show some _ = some _; rw [show (['0'] : Str) = "0".toList from rfl, num_eq]; rfl
  · show some _ = some _; rw [show (['0'] : Str) = "0".toList from rfl, num_eq]; rfl
  · show some _ = some _; rw [show (['0'] : Str) = "0".toList from rfl, num_eq]; rfl
  · rfl
  · show some _ = some _; rw [show (['0'] : Str) = "0".toList from rfl, num_eq]; rfl
  · show some _ = some _; rw [show (['0'] : Str) = "0".toList from rfl, num_eq]; rfl

/-- A literal default is plain. -/
theorem getD_plain {o : Option Str} {d : Str} (h : ∀ s, o = some s → Plain s) (hd : Plain d) : Plain (o.getD d) := by
  cases o with
  | none => exact hd
  | some s => exact h s rfl

theorem dec_plain {x : Option Nat} {d : String} (hd : Plain d.toList) : Plain (dec x d) := by
  cases x with
  | none => exact hd
  | some n => exact digits_plain n

/-- A text with this form is plain. -/
theorem plain_of {s : Str} (h : (!s.contains ',' && (s.head?.all (fun c => !isWs c)) && (s.getLast?.all (fun c => !isWs c))) = true) : Plain s := by
  simp only [Bool.and_eq_true, Bool.not_eq_true', List.contains_eq_mem, decide_eq_false_iff_not] at h
  refine ⟨h.1.1, ?_, ?_⟩
  · intro c hc hw
    have := h.1.2
    rw [hc] at this
    simp [(SrtDoc.white_iff c).2 hw] at this
  · intro c hc hw
    have := h.2
    rw [hc] at this
    simp [(SrtDoc.white_iff c).2 hw] at this

theorem event_plain {b : EventB} (h : PlainB b) : PlainEvent (Spec.Builders.event b) := by
  have z : Plain "0".toList := plain_of (by decide)
  refine ⟨?_, ?_⟩
  · simp only [eventFields, List.forall_mem_cons]
    refine ⟨dec_plain z, getD_plain h.start (plain_of (by decide)), getD_plain h.stop (plain_of (by decide)),
      getD_plain h.style (plain_of (by decide)), getD_plain h.name (plain_of (by decide)), dec_plain z, dec_plain z, dec_plain z,
      getD_plain h.effect (plain_of (by decide)), nofun⟩
  · simp only [eventOptions, List.forall_mem_cons]
    refine ⟨?_, ?_, nofun⟩
    · intro v hv
      obtain ⟨n, _, rfl⟩ := Option.map_eq_some_iff.1 hv
      exact digits_plain n
    · intro v hv
      obtain ⟨n, _, rfl⟩ := Option.map_eq_some_iff.1 hv
      exact digits_plain n

theorem flag_eq (x : Option Bool) : flag x = yes x := by
  cases x with
  | none => rfl
  | some b => cases b <;> rfl

theorem yes_plain (x : Option Bool) : Plain (yes x) := by
  cases x with
  | none => exact plain_of (by decide)
  | some b => cases b <;> exact plain_of (by decide)

theorem style_value (b : StyleB) {f : Str} (h : f ∈ "TertiaryColour".toList :: Spec.Builders.styleNames) :
    b.value f = some ((Spec.Builders.style b).value f) := by
  simp only [Spec.Builders.styleNames, styleFields, styleOptions, List.map_cons, List.map_nil, List.cons_append, List.nil_append,
    List.mem_cons, List.not_mem_nil, or_false] at h
  rcases h with rfl | rfl | rfl | rfl | rfl | rfl | rfl | rfl | rfl | rfl | rfl | rfl | rfl | rfl | rfl | rfl | rfl | rfl | rfl | rfl | rfl |
    rfl | rfl | rfl | rfl | rfl | rfl | rfl
  all_goals first
    | rfl
    | (show some (num _ _) = some _; rw [num_eq]; rfl)
    | (show some (flag _) = some _; rw [flag_eq]; rfl)

theorem style_plain {b : StyleB} (h : ∀ o ∈ given b, ∀ s, o = some s → Plain s) : PlainStyle (Spec.Builders.style b) := by
  simp only [given, List.forall_mem_cons] at h
  obtain ⟨h1, h2, h3, h4, h5, h6, h7, h8, h9, h10, h11, h12, h13, -⟩ := h
  refine ⟨?_, ?_⟩
  · simp only [styleFields, List.forall_mem_cons]
    refine ⟨getD_plain h1 (plain_of (by decide)), getD_plain h2 (plain_of (by decide)), dec_plain (plain_of (by decide)),
      getD_plain h3 (plain_of (by decide)), getD_plain h4 (plain_of (by decide)), getD_plain h5 (plain_of (by decide)),
      getD_plain h6 (plain_of (by decide)), yes_plain _, yes_plain _, yes_plain _, yes_plain _,
      getD_plain h7 (plain_of (by decide)), getD_plain h8 (plain_of (by decide)), getD_plain h9 (plain_of (by decide)),
      getD_plain h10 (plain_of (by decide)), dec_plain (plain_of (by decide)), getD_plain h11 (plain_of (by decide)),
      getD_plain h12 (plain_of (by decide)), dec_plain (plain_of (by decide)), dec_plain (plain_of (by decide)),
      dec_plain (plain_of (by decide)), dec_plain (plain_of (by decide)), dec_plain (plain_of (by decide)), nofun⟩
  · simp only [styleOptions, List.forall_mem_cons]
    refine ⟨?_, ?_, h13, nofun⟩
    · intro v hv
      obtain ⟨n, _, rfl⟩ := Option.map_eq_some_iff.1 hv
      exact digits_plain n
    · intro v hv
      obtain ⟨n, _, rfl⟩ := Option.map_eq_some_iff.1 hv
      exact digits_plain n

end Verif.Builders
