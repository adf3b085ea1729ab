import Verif.Lemmas.Transform
/-!
# C45, C79, C80: animated transforms
-/
namespace Verif.Props.Transform
open Verif Verif.Transform
open Verif.Spec Verif.Spec.Transform

/-- **C45.**  Progress is 0 up to the beginning and 1 from the end on; it is always between 0 and 1, and never decreases.  The
end of a transform without one is the end of the event.  `_partial`: for accelerations that are not negative, see
`C45_bounce_violated`; exact arithmetic; about `powf` it is assumed that powers of numbers between 0 and 1 lie there, in order. -/
theorem C45_progress_partial {powf : Rat → Rat → Rat} (hw : PowerLaw powf) (sinPi : Rat → Rat) {a : Animation} (ha : 0 ≤ a.accel)
    (full : Nat) :
    (∀ now, now ≤ a.start_ms → progress powf sinPi a now full = 0) ∧
    (∀ now, a.start_ms < now → (a.end_ms ≠ 0 → a.end_ms ≤ now) → (a.end_ms = 0 → full ≤ now) →
      progress powf sinPi a now full = 1) ∧
    (∀ now, 0 ≤ progress powf sinPi a now full ∧ progress powf sinPi a now full ≤ 1) ∧
    ∀ now later, now ≤ later → progress powf sinPi a now full ≤ progress powf sinPi a later full := by
  have range : ∀ now, 0 ≤ progress powf sinPi a now full ∧ progress powf sinPi a now full ≤ 1 := by
    intro now
    unfold progress
    simp only
    generalize (if a.end_ms > 0 then a.end_ms else full) = e
    by_cases h1 : now ≤ a.start_ms
    · rw [if_pos h1]; grind
    rw [if_neg h1]
    by_cases h2 : e ≤ a.start_ms ∨ now ≥ e
    · rw [if_pos h2]; grind
    rw [if_neg h2]
    exact curve_range hw _ _ ha
  refine ⟨?_, ?_, range, ?_⟩
  · intro now h
    unfold progress
    simp only [if_pos h]
  · intro now h h1 h2
    unfold progress
    simp only
    rw [if_neg (by omega), if_pos]
    right
    split
    · exact h1 (by omega)
    · exact h2 (by omega)
  · intro now later h
    by_cases h1 : now ≤ a.start_ms
    · have : progress powf sinPi a now full = 0 := by unfold progress; simp only [if_pos h1]
      rw [this]
      exact (range later).1
    · by_cases h2 : (if a.end_ms > 0 then a.end_ms else full) ≤ a.start_ms ∨ later ≥ (if a.end_ms > 0 then a.end_ms else full)
      · have : progress powf sinPi a later full = 1 := by
          unfold progress
          simp only
          rw [if_neg (by omega), if_pos h2]
        rw [this]
        exact (range now).2
      · unfold progress
        simp only
        generalize (if a.end_ms > 0 then a.end_ms else full) = e at h2
        rw [if_neg h1, if_neg (by omega), if_neg (by omega), if_neg h2]
        exact curve_mono hw _ ha (div_mono (by omega) (by omega))

example : PowerLaw (fun t _ => t) := ⟨fun _ _ h0 h1 _ => ⟨h0, h1⟩, fun _ _ _ _ h _ _ => h⟩
example : progress (fun t _ => t) (fun _ => 0) ⟨100, 300, 2, []⟩ 150 5000 = 1 / 16 := by decide +kernel
example : progress (fun t _ => t) (fun _ => 0) ⟨0, 0, 1, []⟩ 1000 4000 = 1 / 4 := by decide +kernel

/-- **C45 is violated** for a negative acceleration: half-way, where the sine is 1, the progress is one and a half, and at the end
it falls back to 1. -/
theorem C45_bounce_violated (powf : Rat → Rat → Rat) {sinPi : Rat → Rat} (h : sinPi (1 / 2) = 1) :
    progress powf sinPi ⟨0, 1000, -10, []⟩ 500 1000 = 3 / 2 ∧ progress powf sinPi ⟨0, 1000, -10, []⟩ 1000 1000 = 1 := by
  constructor
  · have e : progress powf sinPi ⟨0, 1000, -10, []⟩ 500 1000 = 1 / 2 + sinPi (1 / 2) * (1 / 10) * 10 := by
      unfold progress
      simp only
      rw [if_neg (by decide), if_neg (by decide)]
      have hc : clamp (((500 - 0 : Nat) : Rat) / (((if 1000 > 0 then 1000 else 1000) - 0 : Nat) : Rat)) = 1 / 2 := by decide +kernel
      unfold curve
      simp only [hc]
      rw [if_neg (by decide +kernel), if_neg (by decide +kernel), if_neg (by decide +kernel), if_neg (by decide +kernel), if_pos (by decide +kernel)]
      rw [show abs (-10) = 10 by decide +kernel]
    rw [e, h]
    decide +kernel
  · unfold progress
    simp only
    rw [if_neg (by decide), if_pos (by decide)]

/-- **C79.**  A transform is understood as it is written: `(` — begin and end in milliseconds, the acceleration, or both, or
nothing — the tags with their values `)`.  `_partial`: an acceleration that stands alone is below ten (`C79_accel_violated`), the
value of `\alpha` is written without an ampersand behind it (`C79_alpha_violated`), and numbers stand without blanks. -/
theorem C79_parse_partial {f32 : List Char → Option Rat} {s : List Char} {t1 t2 : Nat} {v : Rat} (h : Head f32 s t1 t2 v)
    (hk : ∀ a v, s = a ++ [','] → ',' ∉ a → f32 a = some v → v < 10) {l : List Item} (hl : l ≠ []) (hi : ∀ i ∈ l, i.Ok f32) :
    parse f32 ('(' :: (s ++ itemsText l ++ [')'])) = some ⟨t1, t2, v, l.map (·.tag)⟩ := parse_back h hk hl hi

/-- A parser of numbers for the examples. -/
def small (s : List Char) : Option Rat :=
  if s = "20".toList then some 20 else if s = "0.5".toList then some (1 / 2) else if s = "12".toList then some 12 else none

example : Head small "100,2000,0.5,".toList 100 2000 (1 / 2) :=
  Head.all (t1 := 100) (t2 := 2000) (a := "0.5".toList) (by decide) (by decide)
    ⟨by decide, by decide, by decide, by unfold EventCmd.Trimmed EventCmd.White; simp⟩ rfl
example : (⟨.fontSize 20, "fs".toList, "20".toList⟩ : Item).Ok small :=
  ⟨by decide, by unfold target Denotes; decide, by decide, by intro c hc; cases hc; decide⟩
example : parse small "(100,2000,0.5,\\fs20\\1c&H0000FF&\\alpha&H80)".toList =
    some ⟨100, 2000, 1 / 2, [.fontSize 20, .primary ⟨255, 0, 0, 0⟩, .alpha 127]⟩ := by decide +kernel
example : parse small " (\\fs20) ".toList = some ⟨0, 0, 1, [.fontSize 20]⟩ := by decide +kernel

/-- **C79 is violated** for the usual way of writing a transparency: the transform is dropped. -/
theorem C79_alpha_violated (f32 : List Char → Option Rat) :
    parse f32 "(0,500,\\alpha&H80&)".toList = none ∧
    parse f32 "(0,500,\\alpha&H80)".toList = some ⟨0, 500, 1, [.alpha 127]⟩ := by
  constructor <;> rfl

/-- **C79 is violated** for an acceleration of ten and more: it is taken as the end. -/
theorem C79_accel_violated {f32 : List Char → Option Rat} (h : f32 "12".toList = some 12) :
    Head f32 "12,".toList 0 0 12 ∧ ∃ l, parse f32 "(12,\\alpha&H80)".toList = some ⟨0, 12, 1, l⟩ := by
  refine ⟨Head.accel (a := "12".toList) ⟨by decide, by decide, by decide, by unfold EventCmd.Trimmed EventCmd.White; simp⟩ h,
    [.alpha 127], ?_⟩
  have hp : params f32 "12,".toList = (0, 12, 1) := by
    show (match f32 "12".toList with
      | some v => if v < 10 then (0, 0, v) else (0, asU32 v, 1)
      | none => (0, 0, 1)) = _
    rw [h]
    decide +kernel
  show (match parseTags f32 11 "\\alpha&H80".toList with
    | [] => none
    | t :: ts => some (⟨(params f32 "12,".toList).1, (params f32 "12,".toList).2.1, (params f32 "12,".toList).2.2, t :: ts⟩ : Animation)) = _
  rw [hp]
  rfl

/-- **C80.**  A transform that has not begun leaves everything as it is; one that is over has set everything it changes to
where it leads, and nothing else. -/
theorem C80_ends {d : Defaults} {tags : List Tag} (hn : (tags.map fieldOf).Nodup) {p : Rat} (s : State) :
    (p ≤ 0 → applyAt d tags p s = s) ∧
    (1 ≤ p → (∀ t ∈ tags, read (applyAt d tags p s) (fieldOf t) = some (target t)) ∧
      ∀ f, (∀ t ∈ tags, fieldOf t ≠ f) → read (applyAt d tags p s) f = read s f) := by
  constructor
  · intro hp
    unfold applyAt
    rw [if_pos (Or.inl hp), if_neg (by grind)]
  · intro hp
    have e : applyAt d tags p s = tags.foldl setFinal s := by
      unfold applyAt
      rw [if_pos (Or.inr hp), if_pos hp]
    rw [e]
    refine ⟨fun t ht => ?_, fun f hf => fold_other (fun s t f h => setFinal_other s t h) hf⟩
    obtain ⟨s', _, h2⟩ := fold_own (g := setFinal) (fun s t f h => setFinal_other s t h) (s := s) hn ht
    rw [h2, setFinal_own]

/-- The function knows what this field starts from. -/
def Known (d : Defaults) (style : Field → Val) (s : State) (f : Field) : Prop :=
  Knows d style ∧ (read s f ≠ none ∨ f = .fontSize ∨ f = .primary ∨ f = .secondary ∨ f = .outline ∨ f = .shadow)

/-- **C80.**  While a transform runs, everything it changes is that part of the way from the value in force — of the overrides
before it, or else of the style — to where it leads, and so in between; nothing else changes.  `_partial`: for fields that an
override has set and for colours and the font size; the function knows no other values of the style, see
`C80_style_violated`. -/
theorem C80_during_partial {d : Defaults} {tags : List Tag} (hn : (tags.map fieldOf).Nodup) {p : Rat} (hp : 0 < p) (hp1 : p < 1)
    (style : Field → Val) (s : State) (ht : ∀ t ∈ tags, (target t).Ok) (hs : ∀ f, (inForce style s f).Ok)
    (hk : ∀ t ∈ tags, Known d style s (fieldOf t)) :
    (∀ t ∈ tags, ∃ v, read (applyAt d tags p s) (fieldOf t) = some v ∧ Part p (inForce style s (fieldOf t)) (target t) v ∧
      ValBetween (inForce style s (fieldOf t)) (target t) v) ∧
    ∀ f, (∀ t ∈ tags, fieldOf t ≠ f) → read (applyAt d tags p s) f = read s f := by
  have e : applyAt d tags p s = tags.foldl (setMixed d p) s := by
    unfold applyAt
    rw [if_neg (by grind)]
  rw [e]
  have hp' := Rat.le_of_lt hp
  have hp1' := Rat.le_of_lt hp1
  refine ⟨fun t htm => ?_, fun f hf => fold_other (fun s t f h => setMixed_other d p s t h) hf⟩
  obtain ⟨s', h1, h2⟩ := fold_own (g := setMixed d p) (fun s t f h => setMixed_other d p s t h) (s := s) hn htm
  have hstart : (read s (fieldOf t)).getD (startOf d (fieldOf t)) = inForce style s (fieldOf t) := by
    unfold inForce
    obtain ⟨⟨k1, k2, k3, k4, k5⟩, hk⟩ := hk t htm
    cases hr : read s (fieldOf t) with
    | some v => rfl
    | none =>
      rcases hk with h | h | h | h | h | h
      · exact absurd hr h
      · rw [h]; exact k1.symm
      · rw [h]; exact k2.symm
      · rw [h]; exact k3.symm
      · rw [h]; exact k4.symm
      · rw [h]; exact k5.symm
  obtain ⟨v, g1, g2⟩ := setMixed_own d hp' hp1' s' t (ht t htm) (by rw [h1, hstart]; exact hs _)
  rw [h1, hstart] at g2
  exact ⟨v, by rw [h2, g1], g2, part_between hp' hp1' g2⟩

/-- Nothing set. -/
def blank : State := ⟨none, none, none, none, none, none, none, none, none, none, none, none, none, none, none⟩
def white : Verif.Color.Rgba := ⟨255, 255, 255, 255⟩
def defaults : Defaults := ⟨white, white, white, white, 40⟩

example : applyAt defaults [.fontSize 60, .primary ⟨255, 0, 0, 0⟩] (1 / 4) blank =
    { blank with size := some 45, primary := some ⟨255, 191, 191, 191⟩ } := by decide +kernel
example : Known defaults (fun f => match f with | .fontSize => .number 40 | .primary => .color white | .secondary => .color white | .outline => .color white | .shadow => .color white | _ => .number 0)
    blank .fontSize := ⟨⟨rfl, rfl, rfl, rfl, rfl⟩, Or.inr (Or.inl rfl)⟩

/-- **C80 is violated** for fields that are known from the style only: with a style that is opaque and has a border of 4, the text
becomes transparent and the border thinner when a transform begins that leads to where they are. -/
theorem C80_style_violated (style : Field → Val) (h1 : style .alpha = .byte 255) (h2 : style .border = .number 4) :
    ¬ Part (1 / 2) (inForce style blank .alpha) (.byte 255)
        ((read (applyAt defaults [.alpha 255, .border 4] (1 / 2) blank) .alpha).getD (.byte 255)) ∧
    read (applyAt defaults [.alpha 255, .border 4] (1 / 2) blank) .alpha = some (.byte 127) ∧
    ¬ Part (1 / 2) (inForce style blank .border) (.number 4)
        ((read (applyAt defaults [.alpha 255, .border 4] (1 / 2) blank) .border).getD (.number 4)) ∧
    read (applyAt defaults [.alpha 255, .border 4] (1 / 2) blank) .border = some (.number 2) := by
  have e1 : read (applyAt defaults [.alpha 255, .border 4] (1 / 2) blank) .alpha = some (.byte 127) := by decide +kernel
  have e2 : read (applyAt defaults [.alpha 255, .border 4] (1 / 2) blank) .border = some (.number 2) := by decide +kernel
  have i1 : inForce style blank .alpha = .byte 255 := h1
  have i2 : inForce style blank .border = .number 4 := h2
  rw [e1, e2, i1, i2]
  refine ⟨?_, rfl, ?_, rfl⟩
  · show ¬ (((127 : Nat) : Rat) ≤ way ((255 : Nat) : Rat) ((255 : Nat) : Rat) (1 / 2) ∧
      way ((255 : Nat) : Rat) ((255 : Nat) : Rat) (1 / 2) < ((127 : Nat) : Rat) + 1)
    decide +kernel
  · show ¬ ((2 : Rat) = way 4 4 (1 / 2))
    decide +kernel

/-- **C80.**  The time of a transform counts from the beginning of the event: the result is that of applying the transforms one
after the other, each at its progress.  `_partial`: up to seven weeks after that, see `C80_late_violated`. -/
theorem C80_time_partial (powf : Rat → Rat → Rat) (sinPi : Rat → Rat) (d : Defaults) {start stop now : Nat} (s : State)
    (h : now < start + 429496730) (hs : stop < start + 429496730) (transforms : List Animation) :
    apply powf sinPi d start stop now s transforms = .ok (transforms.foldl (fun s a =>
      applyAt d a.target_tags (progress powf sinPi a (10 * (now - start)) (10 * (stop - start))) s) s) := by
  have key : ∀ r f s, applyAll powf sinPi d r f s transforms =
      transforms.foldl (fun s a => applyAt d a.target_tags (progress powf sinPi a r f) s) s := by
    intro r f
    induction transforms with
    | nil => intro s; rfl
    | cons a as ih => intro s; rw [applyAll, List.foldl_cons]; exact ih _
  unfold apply
  have hf : min ((stop - start) * 10) 4294967295 = 10 * (stop - start) := by omega
  cases transforms with
  | nil => rfl
  | cons a as =>
    simp only [hf]
    by_cases hge : now ≥ start
    · rw [if_pos hge, if_pos (by omega), key, show (now - start) * 10 = 10 * (now - start) by omega]
    · rw [if_neg hge, key, show 10 * (now - start) = 0 by omega]

/-- **C80 is violated** for a time far behind the beginning of the event: a multiplication overflows. -/
theorem C80_late_violated (powf : Rat → Rat → Rat) (sinPi : Rat → Rat) (d : Defaults) (s : State) (a : Animation) :
    apply powf sinPi d 0 500 429496730 s [a] = .panic := rfl

end Verif.Props.Transform
