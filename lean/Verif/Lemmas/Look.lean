import Verif.Spec.Look
import Verif.Lemmas.Segment
import Verif.Lemmas.Color
import Verif.Lemmas.StrX
import Verif.Lemmas.Wrap
/-!
# Lemmas: the look of a run of text
-/
namespace Verif.Look
open Verif
open Verif.Color (Rgba)
open Verif.Segment (Tags Field Val Seg Fade KaraokeStyle parseU8 get_read)
open Verif.Spec.Segment (valueOf)
open Verif.Spec.Look

/-! ## Tags -/

theorem colorOf_some {t : Tags} {f : Field} {c : Rgba} : colorOf t f = some c ↔ valueOf t f = some (.color c) := by
  unfold colorOf
  rw [get_read]
  cases t.vals.get f with
  | none => simp
  | some v => cases v <;> simp

theorem byteOf_some {t : Tags} {f : Field} {n : Nat} : byteOf t f = some n ↔ valueOf t f = some (.byte n) := by
  unfold byteOf
  rw [get_read]
  cases t.vals.get f with
  | none => simp
  | some v => cases v <;> simp

theorem numberOf_some {t : Tags} {f : Field} {n : Rat} : numberOf t f = some n ↔ valueOf t f = some (.number n) := by
  unfold numberOf
  rw [get_read]
  cases t.vals.get f with
  | none => simp
  | some v => cases v <;> simp

theorem flagOf_some {t : Tags} {f : Field} {b : Bool} : flagOf t f = some b ↔ valueOf t f = some (.flag b) := by
  unfold flagOf
  rw [get_read]
  cases t.vals.get f with
  | none => simp
  | some v => cases v <;> simp

theorem pointOf_some {t : Tags} {f : Field} {p : Rat × Rat} : pointOf t f = some p ↔ valueOf t f = some (.point p.1 p.2) := by
  unfold pointOf
  rw [get_read]
  obtain ⟨x, y⟩ := p
  cases t.vals.get f with
  | none => simp
  | some v => cases v <;> simp

theorem fadeOf_some {t : Tags} {x : Fade} : fadeOf t = some x ↔ valueOf t .fade = some (.fade x) := by
  unfold fadeOf
  rw [get_read]
  cases t.vals.get .fade with
  | none => simp
  | some v => cases v <;> simp

theorem clipOf_some {t : Tags} {x : Segment.Clip} : clipOf t = some x ↔ valueOf t .clip = some (.clip x) := by
  unfold clipOf
  rw [get_read]
  cases t.vals.get .clip with
  | none => simp
  | some v => cases v <;> simp

theorem karaokeOf_some {t : Tags} {d : Nat} {k : KaraokeStyle} : karaokeOf t = some (d, k) ↔ valueOf t .karaoke = some (.karaoke d k) := by
  unfold karaokeOf
  rw [get_read]
  cases t.vals.get .karaoke with
  | none => simp
  | some v => cases v <;> simp

/-! ## Colours -/

theorem toU8_share {a : Nat} (ha : a ≤ 255) {k : Rat} (h0 : 0 ≤ k) (h1 : k ≤ 1) :
    ((toU8 ((a : Rat) * k) : Nat) : Rat) ≤ (a : Rat) * k ∧ (a : Rat) * k < ((toU8 ((a : Rat) * k) : Nat) : Rat) + 1 := by
  have a0 : (0 : Rat) ≤ (a : Rat) := Rat.natCast_nonneg
  have a1 : (a : Rat) ≤ (255 : Rat) := by
    have := Rat.natCast_le_natCast.2 ha
    exact this
  have p0 : 0 ≤ (a : Rat) * k := Rat.mul_nonneg a0 h0
  have p1 : (a : Rat) * k ≤ (a : Rat) := by
    have := Rat.mul_le_mul_of_nonneg_left h1 a0
    rwa [Rat.mul_one] at this
  unfold toU8
  rw [if_neg (Rat.not_lt.2 p0), if_neg (Rat.not_lt.2 (Rat.le_trans p1 a1))]
  have f0 : 0 ≤ ((a : Rat) * k).floor := Rat.le_floor_iff.2 (by simpa using p0)
  have e : ((((a : Rat) * k).floor.toNat : Nat) : Rat) = ((((a : Rat) * k).floor : Int) : Rat) := by
    rw [← Rat.intCast_natCast, Int.toNat_of_nonneg f0]
  rw [e]
  have := Rat.lt_floor_add_one ((a : Rat) * k)
  rw [Rat.intCast_add] at this
  exact ⟨Rat.floor_le .., this⟩

theorem painted {t : Tags} {fc fa : Field} {style : Rgba} (hs : style.a ≤ 255) (hb : Bytes t) {k : Rat} (h0 : 0 ≤ k) (h1 : k ≤ 1) :
    Painted (valueOf t fc) (valueOf t fa) style k
      { mixed (colorOf t fc) style (byteOf t fa) with a := toU8 (((mixed (colorOf t fc) style (byteOf t fa)).a : Rat) * k) } := by
  refine ⟨?_, ?_⟩
  · cases hc : colorOf t fc with
    | some c =>
      refine .inl ⟨c, colorOf_some.1 hc, ?_⟩
      simp [mixed]
    | none =>
      refine .inr ⟨fun c h => ?_, ?_⟩
      · rw [colorOf_some.2 h] at hc
        exact absurd hc (by simp)
      · simp [mixed]
  · cases ha : byteOf t fa with
    | some n =>
      have hn := hb _ _ (byteOf_some.1 ha)
      exact ⟨n, .inl (byteOf_some.1 ha), toU8_share hn h0 h1⟩
    | none =>
      refine ⟨style.a, .inr ⟨fun n h => ?_, rfl⟩, toU8_share hs h0 h1⟩
      rw [byteOf_some.2 h] at ha
      exact absurd ha (by simp)

theorem toU8_nat {a : Nat} (ha : a ≤ 255) : toU8 ((a : Rat) * 1) = a := by
  obtain ⟨h1, h2⟩ := toU8_share ha (k := 1) (by decide) (by decide)
  rw [Rat.mul_one] at h1 h2 ⊢
  have h3 := Rat.natCast_le_natCast.1 h1
  have h4 : a < toU8 (a : Rat) + 1 := by
    have : ((toU8 (a : Rat) : Nat) : Rat) + 1 = ((toU8 (a : Rat) + 1 : Nat) : Rat) := by
      rw [Rat.natCast_add]
      rfl
    rw [this] at h2
    exact Rat.natCast_lt_natCast.1 h2
  omega

theorem atMost1_of {x : Rat} (h : x ≤ 1) : atMost1 x = x := if_pos h

/-- A quotient of naturals, of which the first is not greater. -/
theorem quotient {n d : Nat} (h : n ≤ d) (hd : 0 < d) :
    0 ≤ (n : Rat) / (d : Rat) ∧ (n : Rat) / (d : Rat) ≤ 1 ∧ (n : Rat) / (d : Rat) * (d : Rat) = (n : Rat) := by
  have d0 : (0 : Rat) < (d : Rat) := Rat.natCast_pos.2 hd
  have i0 : 0 < (d : Rat)⁻¹ := Rat.inv_pos.2 d0
  have dn : (d : Rat) ≠ 0 := by grind
  have n0 : (0 : Rat) ≤ (n : Rat) := Rat.natCast_nonneg
  have nd : (n : Rat) ≤ (d : Rat) := Rat.natCast_le_natCast.2 h
  have e := Rat.mul_inv_cancel (d : Rat) dn
  rw [Rat.div_def]
  refine ⟨Rat.mul_nonneg n0 (Rat.le_of_lt i0), ?_, ?_⟩
  · have := Rat.mul_le_mul_of_nonneg_right nd (Rat.le_of_lt i0)
    rwa [e] at this
  · rw [Rat.mul_assoc, Rat.inv_mul_cancel _ dn, Rat.mul_one]

theorem cast_sub {a b : Nat} (h : b ≤ a) : ((a - b : Nat) : Rat) = (a : Rat) - (b : Rat) := by
  have e : ((a - b + b : Nat) : Rat) = (a : Rat) := by rw [Nat.sub_add_cancel h]
  rw [Rat.natCast_add] at e
  grind

theorem short_ok {tin tout start stop now : Nat} (h1 : start ≤ now) (h2 : now < stop) :
    Short tin tout start stop now (shortOpacity (start + tin) tin tout start stop now / 255) ∧
    0 ≤ shortOpacity (start + tin) tin tout start stop now / 255 ∧ shortOpacity (start + tin) tin tout start stop now / 255 ≤ 1 := by
  have e255 : ∀ x : Rat, 255 * x / 255 = x := by intro x; grind
  unfold shortOpacity
  by_cases c1 : now < start + tin
  · rw [if_pos c1]
    obtain ⟨q1, q2, q3⟩ := quotient (n := now - start) (d := tin) (by omega) (by omega)
    rw [show max tin 1 = tin by omega, atMost1_of q2, e255]
    refine ⟨.rise c1 ?_, q1, q2⟩
    rw [q3, cast_sub h1]
  · rw [if_neg c1]
    by_cases c2 : stop - tout ≤ now ∧ stop - tout < stop
    · rw [if_pos c2]
      obtain ⟨q1, q2, q3⟩ := quotient (n := stop - now) (d := tout) (by omega) (by omega)
      rw [show max tout 1 = tout by omega, atMost1_of q2, e255]
      refine ⟨.fall (by omega) (by omega) ?_, q1, q2⟩
      rw [q3, cast_sub (by omega)]
    · rw [if_neg c2]
      refine ⟨.full (by omega) (by omega) (by decide +kernel), by decide +kernel, by decide +kernel⟩

/-- Between two bytes. -/
theorem between {a b : Nat} (ha : a ≤ 255) (hb : b ≤ 255) {k : Rat} (h0 : 0 ≤ k) (h1 : k ≤ 1) :
    0 ≤ (255 - ((a : Rat) + ((b : Rat) - (a : Rat)) * k)) / 255 ∧ (255 - ((a : Rat) + ((b : Rat) - (a : Rat)) * k)) / 255 ≤ 1 := by
  have a0 : (0 : Rat) ≤ (a : Rat) := Rat.natCast_nonneg
  have b0 : (0 : Rat) ≤ (b : Rat) := Rat.natCast_nonneg
  have a1 : (a : Rat) ≤ 255 := Rat.natCast_le_natCast.2 ha
  have b1 : (b : Rat) ≤ 255 := Rat.natCast_le_natCast.2 hb
  have m1 : 0 ≤ (a : Rat) * (1 - k) := Rat.mul_nonneg a0 (by grind)
  have m2 : 0 ≤ (b : Rat) * k := Rat.mul_nonneg b0 h0
  have m3 : 0 ≤ (255 - (a : Rat)) * (1 - k) := Rat.mul_nonneg (by grind) (by grind)
  have m4 : 0 ≤ (255 - (b : Rat)) * k := Rat.mul_nonneg (by grind) h0
  constructor <;> grind

theorem long_ok {a1 a2 a3 t1 t2 t3 t4 now : Nat} (h1 : a1 ≤ 255) (h2 : a2 ≤ 255) (h3 : a3 ≤ 255)
    (hx : ¬ (now = t1 ∧ t2 ≤ t1)) (hy : ¬ (now = t3 ∧ t4 ≤ t3)) :
    Long a1 a2 a3 t1 t2 t3 t4 now (255 - longOpacity a1 a2 a3 t1 t2 t3 t4 now) ∧
    0 ≤ longOpacity a1 a2 a3 t1 t2 t3 t4 now / 255 ∧ longOpacity a1 a2 a3 t1 t2 t3 t4 now / 255 ≤ 1 := by
  have e255 : ∀ x : Rat, 255 - (255 - x) = x := by intro x; grind
  have one : ∀ {a : Nat}, a ≤ 255 → 0 ≤ (255 - (a : Rat)) / 255 ∧ (255 - (a : Rat)) / 255 ≤ 1 := by
    intro a ha
    have a0 : (0 : Rat) ≤ (a : Rat) := Rat.natCast_nonneg
    have a1 : (a : Rat) ≤ 255 := Rat.natCast_le_natCast.2 ha
    constructor <;> grind
  unfold longOpacity
  by_cases c1 : now ≤ t1
  · rw [if_pos c1, e255]
    refine ⟨?_, one h1⟩
    by_cases c : now < t1
    · exact .before c rfl
    · refine .toMiddle (by omega) (by omega) ?_
      have : now = t1 := by omega
      subst this
      grind
  rw [if_neg c1]
  by_cases c2 : now < t2
  · rw [if_pos c2, e255]
    obtain ⟨q1, q2, q3⟩ := quotient (n := now - t1) (d := t2 - t1) (by omega) (by omega)
    rw [show max (t2 - t1) 1 = t2 - t1 by omega]
    have e : ((a2 : Rat) - (a1 : Rat)) * ((now - t1 : Nat) : Rat) / ((t2 - t1 : Nat) : Rat) =
        ((a2 : Rat) - (a1 : Rat)) * (((now - t1 : Nat) : Rat) / ((t2 - t1 : Nat) : Rat)) := by
      rw [Rat.div_def, Rat.div_def, Rat.mul_assoc]
    rw [e]
    refine ⟨.toMiddle (by omega) c2 ?_, between h1 h2 q1 q2⟩
    rw [cast_sub (show t1 ≤ now by omega), cast_sub (show t1 ≤ t2 by omega)] at *
    generalize ((now : Rat) - (t1 : Rat)) / ((t2 : Rat) - (t1 : Rat)) = q at *
    rw [← q3]
    grind
  rw [if_neg c2]
  by_cases c3 : now ≤ t3
  · rw [if_pos c3, e255]
    refine ⟨?_, one h2⟩
    by_cases c : now < t3
    · exact .middle (by omega) (by omega) c rfl
    · refine .toEnd (by omega) (by omega) (by omega) (by omega) ?_
      have : now = t3 := by omega
      subst this
      grind
  rw [if_neg c3]
  by_cases c4 : now < t4
  · rw [if_pos c4, e255]
    obtain ⟨q1, q2, q3⟩ := quotient (n := now - t3) (d := t4 - t3) (by omega) (by omega)
    rw [show max (t4 - t3) 1 = t4 - t3 by omega]
    have e : ((a3 : Rat) - (a2 : Rat)) * ((now - t3 : Nat) : Rat) / ((t4 - t3 : Nat) : Rat) =
        ((a3 : Rat) - (a2 : Rat)) * (((now - t3 : Nat) : Rat) / ((t4 - t3 : Nat) : Rat)) := by
      rw [Rat.div_def, Rat.div_def, Rat.mul_assoc]
    rw [e]
    refine ⟨.toEnd (by omega) (by omega) (by omega) c4 ?_, between h2 h3 q1 q2⟩
    rw [cast_sub (show t3 ≤ now by omega), cast_sub (show t3 ≤ t4 by omega)] at *
    generalize ((now : Rat) - (t3 : Rat)) / ((t4 : Rat) - (t3 : Rat)) = q at *
    rw [← q3]
    grind
  · rw [if_neg c4, e255]
    exact ⟨.after (by omega) (by omega) (by omega) (by omega) rfl, one h3⟩

/-! ## Colours of styles -/

theorem trimEnd_amps {s : Str} (n : Nat) (h : ∀ c, s.getLast? = some c → c ≠ '&') :
    Transform.trimEndChar '&' (s ++ List.replicate n '&') = s := by
  unfold Transform.trimEndChar
  rw [List.reverse_append, List.reverse_replicate, List.dropWhile_append_of_pos (by
    intro a ha
    rw [List.eq_of_mem_replicate ha]
    rfl)]
  cases hs : s.reverse with
  | nil =>
    have := congrArg List.reverse hs
    simp at this
    simp [this]
  | cons a l =>
    have hl : s.getLast? = some a := by
      rw [← List.head?_reverse, hs]
      rfl
    have := h a hl
    rw [List.dropWhile_cons_of_neg (by simpa using this), ← hs, List.reverse_reverse]

/-! ## Numbers of effects -/

theorem firstOf_one {t : Tags} {f : Field} {style n : Rat} : FirstOf [valueOf t f] style n ↔ n = (numberOf t f).getD style := by
  constructor
  · rintro (⟨b, a, h, hb⟩ | ⟨h, rfl⟩)
    · cases b with
      | nil =>
        have := (List.cons.inj h).1
        rw [numberOf_some.2 this]
        rfl
      | cons x b =>
        have := (List.cons.inj h).2
        simp at this
    · cases hn : numberOf t f with
      | none => rfl
      | some v => exact absurd (numberOf_some.1 hn) (h _ (by simp) v)
  · intro h
    cases hn : numberOf t f with
    | none =>
      rw [hn] at h
      refine .inr ⟨?_, h⟩
      intro x hx v hv
      rw [List.mem_singleton.1 hx] at hv
      rw [numberOf_some.2 hv] at hn
      exact absurd hn (by simp)
    | some v =>
      rw [hn] at h
      refine .inl ⟨[], [], ?_, by simp⟩
      rw [h, numberOf_some.1 hn]
      rfl

theorem firstOf_two {t : Tags} {f g : Field} {style n : Rat} :
    FirstOf [valueOf t f, valueOf t g] style n ↔ n = ((numberOf t f).or (numberOf t g)).getD style := by
  cases hn : numberOf t f with
  | some v =>
    have hv := numberOf_some.1 hn
    constructor
    · rintro (⟨b, a, h, hb⟩ | ⟨h, rfl⟩)
      · cases b with
        | nil =>
          have := (List.cons.inj h).1
          rw [hv] at this
          cases this
          rfl
        | cons x b =>
          have := (List.cons.inj h).1
          exact absurd (this.symm.trans hv) (hb x (by simp) v)
      · exact absurd hv (h _ (by simp) v)
    · intro h
      refine .inl ⟨[], [valueOf t g], ?_, by simp⟩
      rw [h, hv]
      rfl
  | none =>
    have hv : ∀ v, valueOf t f ≠ some (.number v) := by
      intro v h
      rw [numberOf_some.2 h] at hn
      exact absurd hn (by simp)
    have e : FirstOf [valueOf t f, valueOf t g] style n ↔ FirstOf [valueOf t g] style n := by
      constructor
      · rintro (⟨b, a, h, hb⟩ | ⟨h, rfl⟩)
        · cases b with
          | nil => exact absurd (List.cons.inj h).1 (hv n)
          | cons x b => exact .inl ⟨b, a, (List.cons.inj h).2, fun y hy => hb y (by simp [hy])⟩
        · exact .inr ⟨fun x hx => h x (List.mem_cons_of_mem _ hx), rfl⟩
      · rintro (⟨b, a, h, hb⟩ | ⟨h, rfl⟩)
        · refine .inl ⟨valueOf t f :: b, a, by rw [h]; rfl, ?_⟩
          intro x hx
          rcases List.mem_cons.1 hx with rfl | hx
          · exact hv
          · exact hb x hx
        · refine .inr ⟨?_, rfl⟩
          intro x hx
          rcases List.mem_cons.1 hx with rfl | hx
          · exact hv
          · exact h x hx
    rw [e, firstOf_one]
    rfl

theorem switch_mem {t : Tags} {f : Field} {b : Bool} {style : Str} (hb : b = true ↔ On style) {e x : Effect} :
    x ∈ switch (flagOf t f) b e ↔ x = e ∧ Switched (valueOf t f) style := by
  unfold switch Switched
  cases hf : flagOf t f with
  | some c =>
    have hv := flagOf_some.1 hf
    rw [hv]
    cases c <;> simp
  | none =>
    have hv : ∀ c, valueOf t f ≠ some (.flag c) := by
      intro c h
      rw [flagOf_some.2 h] at hf
      exact absurd hf (by simp)
    simp only [Option.getD_none]
    cases b with
    | true => simp [hv, hb.1 rfl]
    | false =>
      have : ¬ On style := fun h => absurd (hb.2 h) (by simp)
      simp [hv, this]

/-- A length that is scaled alike on both axes. -/
theorem length_eq {scaled : Bool} {axis both : Option Rat} {s w : Rat} :
    length scaled axis both s s (w * (if scaled then s else 1)) = ((axis.or both).getD w) * (if scaled then s else 1) := by
  unfold length
  cases scaled <;> cases axis <;> cases both <;> simp

theorem switch_kind {o : Option Bool} {b : Bool} {e x : Effect} (h : x ∈ switch o b e) : kind x = kind e := by
  unfold switch at h
  split at h
  · rw [List.mem_singleton.1 h]
  · simp at h

theorem border_kind {scaled : Bool} {sx sy : Rat} {d : Defaults} {st : Option Style} {t : Tags} {c : Rgba} {x : Effect}
    (h : x ∈ border scaled sx sy d st t c) : kind x = 4 ∨ kind x = 5 := by
  unfold border at h
  dsimp only at h
  split at h
  · rw [List.mem_singleton.1 h]; exact .inl rfl
  · split at h
    · rw [List.mem_singleton.1 h]; exact .inr rfl
    · simp at h

theorem shade_kind {scaled : Bool} {sx sy : Rat} {d : Defaults} {t : Tags} {c : Rgba} {x : Effect}
    (h : x ∈ shade scaled sx sy d t c) : kind x = 6 := by
  unfold shade at h
  dsimp only at h
  split at h
  · rw [List.mem_singleton.1 h]; rfl
  · simp at h

theorem blurs_kind {sy : Rat} {t : Tags} {x : Effect} (h : x ∈ blurs sy t) : kind x = 7 ∨ kind x = 8 := by
  unfold blurs at h
  rcases List.mem_append.1 h with h | h
  · split at h
    · rw [List.mem_singleton.1 h]; exact .inl rfl
    · simp at h
  · split at h
    · rw [List.mem_singleton.1 h]; exact .inr rfl
    · simp at h

theorem rotated_kind {sx sy : Rat} {t : Tags} {x : Effect} (h : x ∈ rotated sx sy t) : kind x = 9 := by
  unfold rotated at h
  dsimp only at h
  split at h
  · rw [List.mem_singleton.1 h]; rfl
  · simp at h

theorem sheared_kind {t : Tags} {x : Effect} (h : x ∈ sheared t) : kind x = 10 := by
  unfold sheared at h
  split at h
  · split at h
    · rw [List.mem_singleton.1 h]; rfl
    · simp at h
  · simp at h

theorem resized_kind {d : Defaults} {t : Tags} {x : Effect} (h : x ∈ resized d t) : kind x = 11 := by
  unfold resized at h
  dsimp only at h
  split at h
  · rw [List.mem_singleton.1 h]; rfl
  · simp at h

theorem clipped_kind {sx sy : Rat} {t : Tags} {x : Effect} (h : x ∈ clipped sx sy t) : kind x = 12 := by
  unfold clipped at h
  split at h
  · rw [List.mem_singleton.1 h]; rfl
  · simp at h

/-- Where an effect comes from is told by its kind. -/
theorem effects_mem {scaled : Bool} {sx sy : Rat} {d : Defaults} {st : Option Style} {t : Tags} {oc sc : Rgba} {x : Effect} :
    x ∈ effects scaled sx sy d st t oc sc ↔
      (kind x = 0 ∧ x ∈ switch (flagOf t .bold) d.bold .bold) ∨ (kind x = 1 ∧ x ∈ switch (flagOf t .italic) d.italic .italic) ∨
      (kind x = 2 ∧ x ∈ switch (flagOf t .underline) d.underline .underline) ∨
      (kind x = 3 ∧ x ∈ switch (flagOf t .strikeout) d.strikeout .strikethrough) ∨
      ((kind x = 4 ∨ kind x = 5) ∧ x ∈ border scaled sx sy d st t oc) ∨ (kind x = 6 ∧ x ∈ shade scaled sx sy d t sc) ∨
      ((kind x = 7 ∨ kind x = 8) ∧ x ∈ blurs sy t) ∨ (kind x = 9 ∧ x ∈ rotated sx sy t) ∨ (kind x = 10 ∧ x ∈ sheared t) ∨
      (kind x = 11 ∧ x ∈ resized d t) ∨ (kind x = 12 ∧ x ∈ clipped sx sy t) := by
  unfold effects
  simp only [List.mem_append]
  constructor
  · rintro ((((((((((h | h) | h) | h) | h) | h) | h) | h) | h) | h) | h)
    · exact .inl ⟨switch_kind h, h⟩
    · exact .inr (.inl ⟨switch_kind h, h⟩)
    · exact .inr (.inr (.inl ⟨switch_kind h, h⟩))
    · exact .inr (.inr (.inr (.inl ⟨switch_kind h, h⟩)))
    · exact .inr (.inr (.inr (.inr (.inl ⟨border_kind h, h⟩))))
    · exact .inr (.inr (.inr (.inr (.inr (.inl ⟨shade_kind h, h⟩)))))
    · exact .inr (.inr (.inr (.inr (.inr (.inr (.inl ⟨blurs_kind h, h⟩))))))
    · exact .inr (.inr (.inr (.inr (.inr (.inr (.inr (.inl ⟨rotated_kind h, h⟩)))))))
    · exact .inr (.inr (.inr (.inr (.inr (.inr (.inr (.inr (.inl ⟨sheared_kind h, h⟩))))))))
    · exact .inr (.inr (.inr (.inr (.inr (.inr (.inr (.inr (.inr (.inl ⟨resized_kind h, h⟩)))))))))
    · exact .inr (.inr (.inr (.inr (.inr (.inr (.inr (.inr (.inr (.inr ⟨clipped_kind h, h⟩)))))))))
  · rintro (h | h | h | h | h | h | h | h | h | h | h) <;> simp [h.2]

theorem pairwise_append_lt {a b : List Effect} {n : Nat} (ha : a.Pairwise (fun x y => kind x < kind y)) (hb : b.Pairwise (fun x y => kind x < kind y))
    (h1 : ∀ x ∈ a, kind x < n) (h2 : ∀ x ∈ b, n ≤ kind x) : (a ++ b).Pairwise (fun x y => kind x < kind y) := by
  refine List.pairwise_append.2 ⟨ha, hb, ?_⟩
  intro x hx y hy
  have := h1 x hx
  have := h2 y hy
  omega

theorem pairwise_single {P : Effect → Effect → Prop} {l : List Effect} (h : l.length ≤ 1) : l.Pairwise P := by
  match l, h with
  | [], _ => exact List.Pairwise.nil
  | [x], _ => exact List.pairwise_singleton ..
  | _ :: _ :: _, h => simp at h

theorem effects_once {scaled : Bool} {sx sy : Rat} {d : Defaults} {st : Option Style} {t : Tags} {oc sc : Rgba} :
    (effects scaled sx sy d st t oc sc).Pairwise (fun x y => kind x < kind y) := by
  have sw : ∀ o b e, (switch o b e).Pairwise (fun x y => kind x < kind y) := by
    intro o b e
    apply pairwise_single
    unfold switch
    split <;> simp
  have bl : (blurs sy t).Pairwise (fun x y => kind x < kind y) := by
    unfold blurs
    refine pairwise_append_lt (n := 8) (pairwise_single (by split <;> simp)) (pairwise_single (by split <;> simp)) ?_ ?_
    · intro x hx
      split at hx
      · rw [List.mem_singleton.1 hx]; simp [kind]
      · simp at hx
    · intro x hx
      split at hx
      · rw [List.mem_singleton.1 hx]; simp [kind]
      · simp at hx
  have bo : (border scaled sx sy d st t oc).length ≤ 1 := by
    unfold border
    dsimp only
    split
    · simp
    · split <;> simp
  have sh : (shade scaled sx sy d t sc).length ≤ 1 := by unfold shade; dsimp only; split <;> simp
  have ro : (rotated sx sy t).length ≤ 1 := by unfold rotated; dsimp only; split <;> simp
  have se : (sheared t).length ≤ 1 := by
    unfold sheared
    split
    · split <;> simp
    · simp
  have re : (resized d t).length ≤ 1 := by unfold resized; dsimp only; split <;> simp
  have cl : (clipped sx sy t).length ≤ 1 := by unfold clipped; split <;> simp
  have k0 : ∀ x ∈ switch (flagOf t .bold) d.bold .bold, kind x = 0 := fun x hx => switch_kind hx
  have k1 : ∀ x ∈ switch (flagOf t .italic) d.italic .italic, kind x = 1 := fun x hx => switch_kind hx
  have k2 : ∀ x ∈ switch (flagOf t .underline) d.underline .underline, kind x = 2 := fun x hx => switch_kind hx
  have k3 : ∀ x ∈ switch (flagOf t .strikeout) d.strikeout .strikethrough, kind x = 3 := fun x hx => switch_kind hx
  have kb : ∀ x ∈ border scaled sx sy d st t oc, kind x = 4 ∨ kind x = 5 := fun x hx => border_kind hx
  have ks : ∀ x ∈ shade scaled sx sy d t sc, kind x = 6 := fun x hx => shade_kind hx
  have kl : ∀ x ∈ blurs sy t, kind x = 7 ∨ kind x = 8 := fun x hx => blurs_kind hx
  have kr : ∀ x ∈ rotated sx sy t, kind x = 9 := fun x hx => rotated_kind hx
  have ke : ∀ x ∈ sheared t, kind x = 10 := fun x hx => sheared_kind hx
  have kz : ∀ x ∈ resized d t, kind x = 11 := fun x hx => resized_kind hx
  have kc : ∀ x ∈ clipped sx sy t, kind x = 12 := fun x hx => clipped_kind hx
  unfold effects
  refine pairwise_append_lt (n := 12) ?_ (pairwise_single cl) ?_ (fun x hx => by have := kc x hx; omega)
  refine pairwise_append_lt (n := 11) ?_ (pairwise_single re) ?_ (fun x hx => by have := kz x hx; omega)
  refine pairwise_append_lt (n := 10) ?_ (pairwise_single se) ?_ (fun x hx => by have := ke x hx; omega)
  refine pairwise_append_lt (n := 9) ?_ (pairwise_single ro) ?_ (fun x hx => by have := kr x hx; omega)
  refine pairwise_append_lt (n := 7) ?_ bl ?_ (fun x hx => by have := kl x hx; omega)
  refine pairwise_append_lt (n := 6) ?_ (pairwise_single sh) ?_ (fun x hx => by have := ks x hx; omega)
  refine pairwise_append_lt (n := 4) ?_ (pairwise_single bo) ?_ (fun x hx => by have := kb x hx; omega)
  refine pairwise_append_lt (n := 3) ?_ (sw ..) ?_ (fun x hx => by have := k3 x hx; omega)
  refine pairwise_append_lt (n := 2) ?_ (sw ..) ?_ (fun x hx => by have := k2 x hx; omega)
  refine pairwise_append_lt (n := 1) (sw ..) (sw ..) ?_ (fun x hx => by have := k1 x hx; omega)
  all_goals
    intro x hx
    grind

/-! ## Lines -/

theorem flat_append (a b : List Seg) : flat (a ++ b) = flat a ++ flat b := by simp [flat]

theorem flat_cons (g : Seg) (gs : List Seg) : flat (g :: gs) = g.text.map (fun c => (c, g.tags)) ++ flat gs := by simp [flat]

theorem cut_ne (l : List (Char × Tags)) : cut l ≠ [] := by
  cases l with
  | nil => simp [cut]
  | cons x xs =>
    unfold cut
    split
    · simp
    · split <;> simp

theorem cut_plain {a : List (Char × Tags)} (h : ∀ x ∈ a, x.1 ≠ '\n') (b : List (Char × Tags)) :
    cut (a ++ b) = (a ++ (cut b).head (cut_ne b)) :: (cut b).tail := by
  induction a with
  | nil => simp
  | cons x a ih =>
    rw [List.cons_append, cut, if_neg (h x (by simp)), ih (fun y hy => h y (by simp [hy]))]
    rfl

theorem cut_break {a : List (Char × Tags)} (h : ∀ x ∈ a, x.1 ≠ '\n') {x : Char × Tags} (hx : x.1 = '\n') (b : List (Char × Tags)) :
    cut (a ++ x :: b) = a :: cut b := by
  rw [cut_plain h]
  have e : cut (x :: b) = [] :: cut b := by rw [cut, if_pos hx]
  simp only [e, List.head_cons, List.append_nil, List.tail_cons]

theorem cut_last {a : List (Char × Tags)} (h : ∀ x ∈ a, x.1 ≠ '\n') : cut a = [a] := by
  have := cut_plain h []
  simpa [cut] using this

theorem flat_eq_nil {gs : List Seg} (h : ∀ g ∈ gs, g.text ≠ []) : flat gs = [] ↔ gs = [] := by
  cases gs with
  | nil => simp [flat]
  | cons g gs =>
    rw [flat_cons]
    have := h g (by simp)
    simp [this]

theorem ne_iff_of {α β : Type} [DecidableEq α] [DecidableEq β] {a : α} {x : α} {b : β} {y : β} (h : a = x ↔ b = y) :
    decide (a ≠ x) = decide (b ≠ y) := by
  simp [h]

/-- What has been begun is without line breaks and without empty segments. -/
def Begun (cur : List Seg) : Prop := ∀ g ∈ cur, g.text ≠ [] ∧ '\n' ∉ g.text

theorem begun_flat {cur : List Seg} (h : Begun cur) : ∀ x ∈ flat cur, x.1 ≠ '\n' := by
  intro x hx
  obtain ⟨g, hg, hx⟩ := List.mem_flatMap.1 hx
  obtain ⟨c, hc, rfl⟩ := List.mem_map.1 hx
  intro e
  exact (h g hg).2 (e ▸ hc)

theorem begun_snoc {cur : List Seg} (h : Begun cur) {g : Seg} (hg : g.text ≠ []) (hn : '\n' ∉ g.text) : Begun (cur ++ [g]) := by
  intro x hx
  rcases List.mem_append.1 hx with hx | hx
  · exact h x hx
  · rw [List.mem_singleton.1 hx]
    exact ⟨hg, hn⟩

/-- The lines that are not blank. -/
def filled (l : List (List (Char × Tags))) : List (List (Char × Tags)) := l.filter (fun x => decide (x ≠ []))

/-- The characters of parts, joined by line breaks. -/
def joinParts (tags : Tags) : List Str → List (Char × Tags)
  | [] => []
  | [p] => p.map (fun c => (c, tags))
  | p :: ps => p.map (fun c => (c, tags)) ++ ('\n', tags) :: joinParts tags ps

theorem joinParts_two (tags : Tags) (p q : Str) (ps : List Str) :
    joinParts tags (p :: q :: ps) = p.map (fun c => (c, tags)) ++ ('\n', tags) :: joinParts tags (q :: ps) := rfl

theorem joinParts_splitOn (tags : Tags) (s : Str) : joinParts tags (splitOn '\n' s) = s.map (fun c => (c, tags)) := by
  induction s with
  | nil => rfl
  | cons c s ih =>
    by_cases hc : c = '\n'
    · subst hc
      have e : splitOn '\n' ('\n' :: s) = [] :: splitOn '\n' s := by simp [splitOn]
      rw [e]
      cases hs : splitOn '\n' s with
      | nil => simp [hs, joinParts] at ih; subst ih; simp [splitOn] at hs
      | cons p ps =>
        rw [hs] at ih
        simp [joinParts, ih]
    · cases hs : splitOn '\n' s with
      | nil => exact absurd hs (splitOn_ne_nil _ _)
      | cons p ps =>
        have e : splitOn '\n' (c :: s) = (c :: p) :: ps := by simp [splitOn, hc, hs]
        rw [e]
        rw [hs] at ih
        cases ps with
        | nil => simpa [joinParts] using ih
        | cons q ps => simpa [joinParts] using ih

theorem filled_cons (a : List (Char × Tags)) (l : List (List (Char × Tags))) :
    filled (a :: l) = (if a ≠ [] then [a] else []) ++ filled l := by
  unfold filled
  by_cases h : a = [] <;> simp [h]

/-- The parts after the first one. -/
theorem addParts_rest (g : Seg) : ∀ (ps : List Str) (cur : List Seg), ps ≠ [] → (∀ p ∈ ps, '\n' ∉ p) → Begun cur →
    Begun (addParts g false cur ps).2 ∧ ∀ (ls : List (List Seg)) (rest : List (Char × Tags)),
      ls.map flat = filled (cut (flat (addParts g false cur ps).2 ++ rest)) →
      ((addParts g false cur ps).1 ++ ls).map flat = filled (flat cur :: cut (joinParts g.tags ps ++ rest)) := by
  intro ps
  induction ps with
  | nil => intro cur h; exact absurd rfl h
  | cons p ps ih =>
    intro cur _ hp hb
    have hb' : Begun (if p ≠ [] then [{ g with text := p }] else ([] : List Seg)) := by
      by_cases h : p = []
      · rw [if_neg (by simpa using h)]
        intro x hx
        simp at hx
      · rw [if_pos h]
        exact begun_snoc (cur := []) (fun x hx => by simp at hx) (g := { g with text := p }) h (hp p (by simp))
    have hfl : flat (if p ≠ [] then [{ g with text := p }] else ([] : List Seg)) = p.map (fun c => (c, g.tags)) := by
      by_cases h : p = []
      · subst h
        simp [flat]
      · rw [if_pos h]
        simp [flat]
    have hpl : ∀ x ∈ p.map (fun c => (c, g.tags)), x.1 ≠ '\n' := by
      intro x hx
      obtain ⟨c, hc, rfl⟩ := List.mem_map.1 hx
      intro e
      exact hp p (by simp) (e ▸ hc)
    have hdone : (if ¬ false = true ∧ cur ≠ [] then [cur] else []).map flat = (if flat cur ≠ [] then [flat cur] else []) := by
      by_cases h : cur = []
      · subst h
        simp [flat]
      · have : flat cur ≠ [] := fun e => h ((flat_eq_nil (fun x hx => (hb x hx).1)).1 e)
        simp [h, this]
    have hcur : (if ¬ false = true ∧ cur ≠ [] then [] else cur) = ([] : List Seg) := by
      by_cases h : cur = []
      · simp [h]
      · simp [h]
    have hstep : (if p ≠ [] then (if ¬ false = true ∧ cur ≠ [] then [] else cur) ++ [{ g with text := p }]
        else (if ¬ false = true ∧ cur ≠ [] then [] else cur)) = (if p ≠ [] then [{ g with text := p }] else ([] : List Seg)) := by
      rw [hcur]
      rfl
    have e : addParts g false cur (p :: ps) =
        ((if ¬ false = true ∧ cur ≠ [] then [cur] else []) ++ (addParts g false (if p ≠ [] then [{ g with text := p }] else ([] : List Seg)) ps).1,
          (addParts g false (if p ≠ [] then [{ g with text := p }] else ([] : List Seg)) ps).2) := by
      rw [addParts]
      rw [hstep]
    rw [e]
    by_cases hps : ps = []
    · subst hps
      refine ⟨hb', ?_⟩
      intro ls rest h
      have h0 : ∀ x, addParts g false x [] = ([], x) := fun x => rfl
      rw [h0] at h ⊢
      dsimp only at h ⊢
      rw [List.append_nil, List.map_append, hdone, h, filled_cons, hfl]
      rfl
    · obtain ⟨i1, i2⟩ := ih (if p ≠ [] then [{ g with text := p }] else ([] : List Seg)) hps (fun q hq => hp q (by simp [hq])) hb'
      refine ⟨i1, ?_⟩
      intro ls rest h
      have := i2 ls rest h
      rw [List.append_assoc, List.map_append, hdone, this, filled_cons (flat cur), hfl]
      cases ps with
      | nil => exact absurd rfl hps
      | cons q ps =>
        rw [joinParts_two, List.append_assoc, List.cons_append, cut_break (x := ('\n', g.tags)) hpl rfl]

theorem addParts_first (g : Seg) {p : Str} {ps : List Str} {cur : List Seg} (hp : ∀ q ∈ p :: ps, '\n' ∉ q) (hb : Begun cur) :
    Begun (addParts g true cur (p :: ps)).2 ∧ ∀ (ls : List (List Seg)) (rest : List (Char × Tags)),
      ls.map flat = filled (cut (flat (addParts g true cur (p :: ps)).2 ++ rest)) →
      ((addParts g true cur (p :: ps)).1 ++ ls).map flat = filled (cut (flat cur ++ joinParts g.tags (p :: ps) ++ rest)) := by
  have e : addParts g true cur (p :: ps) = addParts g false (if p ≠ [] then cur ++ [{ g with text := p }] else cur) ps := by
    rw [addParts]
    simp
  have hb' : Begun (if p ≠ [] then cur ++ [{ g with text := p }] else cur) := by
    by_cases h : p = []
    · rw [if_neg (by simpa using h)]
      exact hb
    · rw [if_pos h]
      exact begun_snoc hb (g := { g with text := p }) h (hp p (by simp))
  have hfl : flat (if p ≠ [] then cur ++ [{ g with text := p }] else cur) = flat cur ++ p.map (fun c => (c, g.tags)) := by
    by_cases h : p = []
    · subst h
      simp
    · rw [if_pos h, flat_append]
      simp [flat]
  rw [e]
  by_cases hps : ps = []
  · subst hps
    refine ⟨hb', ?_⟩
    intro ls rest h
    have h0 : ∀ x, addParts g false x [] = ([], x) := fun x => rfl
    rw [h0] at h ⊢
    dsimp only at h ⊢
    rw [List.nil_append, h, hfl]
    rfl
  · obtain ⟨i1, i2⟩ := addParts_rest g ps _ hps (fun q hq => hp q (by simp [hq])) hb'
    refine ⟨i1, ?_⟩
    intro ls rest h
    rw [i2 ls rest h, hfl]
    cases ps with
    | nil => exact absurd rfl hps
    | cons q ps =>
      have hpl : ∀ x ∈ flat cur ++ p.map (fun c => (c, g.tags)), x.1 ≠ '\n' := by
        intro x hx
        rcases List.mem_append.1 hx with hx | hx
        · exact begun_flat hb x hx
        · obtain ⟨c, hc, rfl⟩ := List.mem_map.1 hx
          intro e
          exact hp p (by simp) (e ▸ hc)
      rw [joinParts_two, ← List.append_assoc, List.append_assoc _ (_ :: _) rest, List.cons_append,
        cut_break (x := ('\n', g.tags)) hpl rfl]

theorem linesLoop_ok (gs : List Seg) : ∀ cur : List Seg, Begun cur →
    (linesLoop cur gs).map flat = filled (cut (flat cur ++ flat gs)) := by
  induction gs with
  | nil =>
    intro cur hb
    have h0 : flat ([] : List Seg) = [] := rfl
    rw [linesLoop, h0, List.append_nil, cut_last (begun_flat hb), filled_cons]
    by_cases h : cur = []
    · subst h
      rfl
    · have : flat cur ≠ [] := fun e => h ((flat_eq_nil (fun x hx => (hb x hx).1)).1 e)
      simp [h, this, filled]
  | cons g gs ih =>
    intro cur hb
    rw [linesLoop, flat_cons]
    by_cases h1 : g.text = []
    · rw [if_pos h1, ih cur hb, h1]
      rfl
    rw [if_neg h1]
    by_cases h2 : '\n' ∈ g.text
    · rw [if_pos h2]
      have hp : ∀ q ∈ splitOn '\n' g.text, '\n' ∉ q := fun q hq => Wrap.splitOn_mem _ q hq
      have hj := joinParts_splitOn g.tags g.text
      cases hs : splitOn '\n' g.text with
      | nil =>
        rw [hs] at hj
        simp [joinParts] at hj
        exact absurd hj h1
      | cons p ps =>
        rw [hs] at hp hj
        obtain ⟨i1, i2⟩ := addParts_first g hp hb
        rw [i2 _ (flat gs) (ih _ i1), hj, List.append_assoc]
    · rw [if_neg h2, ih _ (begun_snoc hb h1 h2), flat_append]
      simp [flat]

/-! ## Karaoke -/

theorem add32_ok {a b : Nat} (h : a + b < u32Bound) : add32 a b = .ok (a + b) := if_pos h

theorem syllable_ok {a d now : Nat} (h : a + d < u32Bound) : ∃ k, syllable a d now = .ok k ∧ Sung a d now k := by
  unfold syllable
  rw [add32_ok h]
  dsimp only
  by_cases c1 : now < a
  · rw [if_pos c1]
    exact ⟨_, rfl, .before c1 rfl⟩
  rw [if_neg c1]
  by_cases c2 : a + d ≤ now
  · rw [if_pos c2]
    exact ⟨_, rfl, .after c2 rfl⟩
  rw [if_neg c2]
  refine ⟨_, rfl, .within (by omega) (by omega) ?_⟩
  rw [(quotient (n := now - a) (d := d) (by omega) (by omega)).2.2, cast_sub (by omega)]

theorem sing_ok {start now : Nat} (ts : List Tags) : ∀ acc, start + acc + (ts.map duration).sum < u32Bound →
    (∀ t ∈ ts, valueOf t .drawing = none) →
    ∃ l, sing start now acc ts = .ok l ∧ l.length = ts.length ∧
      ∀ i t e, ts[i]? = some t → l[i]? = some e → Entry (start + acc + ((ts.take i).map duration).sum) now t e := by
  induction ts with
  | nil => intro acc _ _; exact ⟨[], rfl, rfl, fun i t e h => by simp at h⟩
  | cons t ts ih =>
    intro acc hb hd
    rw [List.map_cons, List.sum_cons] at hb
    have hdr : byteOf t .drawing = none := by
      cases h : byteOf t .drawing with
      | none => rfl
      | some n => rw [byteOf_some, hd t (by simp)] at h; exact absurd h (by simp)
    have hsing : sing start now acc (t :: ts) = (match karaokeOf t with
      | none =>
        (match sing start now acc ts with
         | .ok l => .ok (none :: l)
         | _ => .panic)
      | some (d, _) =>
        (match add32 start acc with
         | .ok a =>
           (match syllable a d now with
            | .ok k =>
              (match add32 acc d with
               | .ok acc' =>
                 (match sing start now acc' ts with
                  | .ok l => .ok (some k :: l)
                  | _ => .panic)
               | _ => .panic)
            | _ => .panic)
         | _ => .panic)) := by
      rw [sing, if_neg (by rw [hdr]; decide)]
      cases karaokeOf t <;> rfl
    rw [hsing]
    cases hk : karaokeOf t with
    | none =>
      have hn : ∀ d k, valueOf t .karaoke ≠ some (.karaoke d k) := by
        intro d k h
        rw [karaokeOf_some.2 h] at hk
        exact absurd hk (by simp)
      have h0 : duration t = 0 := by
        unfold duration
        split
        · next d k h => exact absurd h (hn d k)
        · rfl
      obtain ⟨l, l1, l2, l3⟩ := ih acc (by omega) (fun x hx => hd x (by simp [hx]))
      dsimp only
      rw [l1]
      refine ⟨none :: l, rfl, by simp [l2], ?_⟩
      intro i t' e h1 h2
      cases i with
      | zero =>
        cases h1
        cases h2
        unfold Entry
        split
        · next d k h => exact absurd h (hn d k)
        · rfl
      | succ i =>
        have := l3 i t' e (by simpa using h1) (by simpa using h2)
        rw [List.take_succ_cons, List.map_cons, List.sum_cons, h0, Nat.zero_add]
        exact this
    | some p =>
      obtain ⟨d, k⟩ := p
      have hv := karaokeOf_some.1 hk
      have h0 : duration t = d := by
        unfold duration
        rw [hv]
      rw [h0] at hb
      obtain ⟨q, q1, q2⟩ := syllable_ok (a := start + acc) (d := d) (now := now) (by omega)
      obtain ⟨l, l1, l2, l3⟩ := ih (acc + d) (by omega) (fun x hx => hd x (by simp [hx]))
      dsimp only
      rw [add32_ok (show start + acc < u32Bound by omega)]
      dsimp only
      rw [q1]
      dsimp only
      rw [add32_ok (show acc + d < u32Bound by omega)]
      dsimp only
      rw [l1]
      refine ⟨some q :: l, rfl, by simp [l2], ?_⟩
      intro i t' e h1 h2
      cases i with
      | zero =>
        cases h1
        cases h2
        unfold Entry
        rw [hv]
        exact ⟨q, rfl, q2⟩
      | succ i =>
        have := l3 i t' e (by simpa using h1) (by simpa using h2)
        rw [List.take_succ_cons, List.map_cons, List.sum_cons, h0]
        rw [show start + acc + (d + ((ts.take i).map duration).sum) = start + (acc + d) + ((ts.take i).map duration).sum by omega]
        exact this

end Verif.Look
