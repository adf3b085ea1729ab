import Verif.Spec.Resolved
import Verif.Lemmas.Time
import Verif.Lemmas.Str
import Verif.Lemmas.SrtDoc
import Verif.Lemmas.Parser
import Verif.Lemmas.Map
import Verif.Props.Styles
namespace Verif.Resolved
open Verif Verif.Spec Verif.Spec.Resolved
open Verif.Ast (Style)
open Verif.Parser (Section)
open Verif.Color (Rgba parseBgrColor)

/-! ## Fields -/

theorem whole_iff {bound : Nat} {t : Str} {v : Nat} : parseUnsigned 10 bound t = some v ↔ Whole bound t v := by
  constructor
  · intro h
    have hb : v < bound ∧ ∃ ds, (t = ds ∨ t = '+' :: ds) ∧ ds ≠ [] ∧ digitsVal 10 0 ds = some v := by
      unfold parseUnsigned at h
      simp only at h
      split at h
      · simp at h
      · next hne =>
        split at h
        · next v' hv =>
          split at h
          · next hlt =>
            simp at h; subst h
            refine ⟨hlt, ?_⟩
            split at hv
            · next t => exact ⟨t, Or.inr rfl, fun e => hne (by simp [e]), hv⟩
            · next t' _ => exact ⟨t, Or.inl rfl, fun e => hne (by simp [e]), hv⟩
          · simp at h
        · simp at h
    obtain ⟨hlt, ds, hs, hne, hv⟩ := hb
    have := digits_of_digitsVal hv
    refine ⟨hlt, ?_⟩
    rcases hs with rfl | rfl
    · exact Or.inl ⟨hne, this.1, this.2⟩
    · exact Or.inr ⟨ds, rfl, hne, this.1, this.2⟩
  · rintro ⟨hb, ⟨hne, hd, rfl⟩ | ⟨ds, rfl, hne, hd, rfl⟩⟩
    · rw [parseUnsigned_digits hne hd, if_pos hb]
    · unfold parseUnsigned
      cases ds with
      | nil => exact absurd rfl hne
      | cons c cs =>
        simp only [digitsVal_of_digits hd]
        exact if_pos hb

theorem flag_iff {t : Str} {b : Bool} : flag t = some b ↔ Flag t b := by
  unfold flag Flag
  have e0 : "0".toList = ['0'] := by decide
  have e1 : "1".toList = ['1'] := by decide
  rw [e0, e1]
  by_cases h0 : t = ['0']
  · subst h0; simp [eq_comm]
  · rw [if_neg h0]
    by_cases h1 : t = ['1']
    · subst h1; simp [eq_comm]
    · rw [if_neg h1]; simp [h0, h1]

theorem size_iff {num : Str → Option Rat} {t : Str} {x : Rat} : fontSize num t = some x ↔ Size num t x := by
  unfold fontSize Size
  cases h : num t with
  | none => simp
  | some y =>
    dsimp only
    by_cases hb : y ≤ 0 ∨ y > 1000
    · rw [if_pos hb]
      simp only [Option.some.injEq, reduceCtorEq, false_iff]
      rintro ⟨rfl, h1, h2⟩
      rcases hb with hb | hb <;> grind
    · rw [if_neg hb]
      simp only [Option.some.injEq]
      constructor
      · rintro rfl; exact ⟨rfl, by grind, by grind⟩
      · exact fun h => h.1

theorem percent_iff {num : Str → Option Rat} {t : Str} {x : Rat} : percentage num t = some x ↔ Percent num t x := by
  unfold percentage Percent
  cases h : num t with
  | none => simp
  | some y =>
    dsimp only
    by_cases hb : 0 ≤ y ∧ y ≤ 1000
    · rw [if_pos hb]
      simp only [Option.some.injEq]
      constructor
      · rintro rfl; exact ⟨rfl, hb⟩
      · exact fun h => h.1
    · rw [if_neg hb]
      simp only [Option.some.injEq, reduceCtorEq, false_iff]
      rintro ⟨rfl, h1⟩
      exact hb h1

theorem color_iff {t : Str} {c : Rgba} : color t = some c ↔ Colour parseBgrColor t c := by
  unfold color Colour
  by_cases h : trim t = []
  · rw [if_pos h]
    have hw : ∀ x ∈ t, SrtDoc.White x := fun x hx => (SrtDoc.white_iff x).1 (Parser.trim_eq_nil.1 h x hx)
    constructor
    · intro e; exact Or.inl ⟨hw, (Option.some.inj e).symm⟩
    · rintro (⟨_, rfl⟩ | ⟨⟨x, hx, hn⟩, _⟩)
      · rfl
      · exact absurd (hw x hx) hn
  · rw [if_neg h]
    have hw : ¬ ∀ x ∈ t, SrtDoc.White x := fun hall => h (Parser.trim_eq_nil.2 fun x hx => (SrtDoc.white_iff x).2 (hall x hx))
    constructor
    · intro e
      refine Or.inr ⟨?_, e⟩
      exact Classical.byContradiction fun hc => hw fun x hx => Classical.byContradiction fun hn => hc ⟨x, hx, hn⟩
    · rintro (⟨hall, _⟩ | ⟨_, e⟩)
      · exact absurd hall hw
      · exact e

theorem vertical_iff {s : Style} {t b : Nat} : vertical s = some (t, b) ↔ Vertical s t b := by
  unfold vertical Vertical
  cases hT : s.marginT with
  | none =>
    dsimp only
    rw [Option.map_eq_some_iff]
    simp only [u16, whole_iff, reduceCtorEq, false_and, exists_false, false_or, true_or, true_and, Prod.mk.injEq]
    constructor
    · rintro ⟨v, h, rfl, rfl⟩; exact ⟨h, rfl⟩
    · rintro ⟨h, rfl⟩; exact ⟨_, h, rfl, rfl⟩
  | some x =>
    cases hB : s.marginB with
    | none =>
      dsimp only
      rw [Option.map_eq_some_iff]
      simp only [u16, whole_iff, reduceCtorEq, false_and, and_false, exists_false, false_or, or_true, true_and, Prod.mk.injEq]
      constructor
      · rintro ⟨v, h, rfl, rfl⟩; exact ⟨h, rfl⟩
      · rintro ⟨h, rfl⟩; exact ⟨_, h, rfl, rfl⟩
    | some y =>
      dsimp only
      simp only [Option.bind_eq_some_iff, Option.map_eq_some_iff, u16, whole_iff, Prod.mk.injEq]
      constructor
      · rintro ⟨t', h1, b', h2, rfl, rfl⟩
        exact Or.inl ⟨x, y, rfl, rfl, h1, h2⟩
      · rintro (⟨x', y', hx, hy, h1, h2⟩ | ⟨h, _⟩)
        · cases hx; cases hy
          exact ⟨t, h1, b, h2, rfl, rfl⟩
        · simp at h

/-! ## Score -/

theorem near_iff (x y : Rat) : Near x y ↔ ¬ absR (x - y) > 1 / 1000 := by
  unfold Near absR
  split <;> grind

theorem scored_iff (r : Look) : r.score = min (complexity r) 100 ↔ Scored r := by
  have h1 : (if Near r.scaleX 100 ∧ Near r.scaleY 100 then 0 else 10) =
      (if absR (r.scaleX - 100) > 1 / 1000 ∨ absR (r.scaleY - 100) > 1 / 1000 then 10 else 0) := by
    by_cases hx : absR (r.scaleX - 100) > 1 / 1000
    · rw [if_neg (fun h => (near_iff _ _).1 h.1 hx), if_pos (Or.inl hx)]
    · by_cases hy : absR (r.scaleY - 100) > 1 / 1000
      · rw [if_neg (fun h => (near_iff _ _).1 h.2 hy), if_pos (Or.inr hy)]
      · rw [if_pos ⟨(near_iff _ _).2 hx, (near_iff _ _).2 hy⟩, if_neg (fun h => h.elim hx hy)]
  have h2 : (if Near r.angle 0 then 0 else 15) = (if absR r.angle > 1 / 1000 then 15 else 0) := by
    have e : r.angle - 0 = r.angle := by grind
    have hn := near_iff r.angle 0
    rw [e] at hn
    by_cases h : absR r.angle > 1 / 1000
    · rw [if_neg (fun k => hn.1 k h), if_pos h]
    · rw [if_pos (hn.2 h), if_neg h]
  have h3 : ∀ b : Bool, b.toNat * 2 = if b = true then 2 else 0 := by decide
  have h4 : ∀ b c : Bool, (b || c).toNat * 5 = if b = true ∨ c = true then 5 else 0 := by decide
  unfold Scored points
  rw [h1, h2, h3, h3, h4]
  have e : complexity r = _ := rfl
  have hle : complexity r ≤ 100 := by
    unfold complexity
    repeat' split
    all_goals omega
  rw [Nat.min_eq_left hle]
  exact Iff.rfl

theorem scored_says (r : Look) : Scored (scored r) := (scored_iff _).1 rfl

/-! ## Resolving -/

theorem name_iff {t old new : Str} : (if t = [] then old else t) = new ↔ (t = [] ∧ new = old) ∨ (t ≠ [] ∧ new = t) := by
  by_cases h : t = []
  · rw [if_pos h]; simp [h, eq_comm]
  · rw [if_neg h]; simp [h, eq_comm]

theorem fromStyle_iff {num : Str → Option Rat} {s : Style} {r : Look} :
    fromStyle num s = some r ↔ Says num parseBgrColor s r ∧ Scored r := by
  unfold fromStyle
  simp only [Option.bind_eq_some_iff, Option.map_eq_some_iff]
  constructor
  · rintro ⟨a1, h1, a2, h2, a3, h3, a4, h4, a5, h5, a6, h6, a7, h7, a8, h8, a9, h9, b1, k1, b2, k2, b3, k3, b4, k4, b5, k5,
      b6, k6, b7, k7, b8, k8, b9, k9, c1, l1, c2, l2, c3, l3, rfl⟩
    refine ⟨?_, scored_says _⟩
    exact ⟨rfl, name_iff.1 rfl, size_iff.1 h1, color_iff.1 h2, color_iff.1 h3, color_iff.1 h4, color_iff.1 h5, flag_iff.1 h6,
      flag_iff.1 h7, flag_iff.1 h8, flag_iff.1 h9, percent_iff.1 k1, percent_iff.1 k2, k3, k4, whole_iff.1 k5, k6, k7,
      whole_iff.1 k8, whole_iff.1 k9, whole_iff.1 l1, vertical_iff.1 l2, whole_iff.1 l3⟩
  · rintro ⟨h, hs⟩
    refine ⟨_, size_iff.2 h.fontSize, _, color_iff.2 h.primary, _, color_iff.2 h.secondary, _, color_iff.2 h.outlineColor, _,
      color_iff.2 h.back, _, flag_iff.2 h.bold, _, flag_iff.2 h.italic, _, flag_iff.2 h.underline, _, flag_iff.2 h.strikeOut, _,
      percent_iff.2 h.scaleX, _, percent_iff.2 h.scaleY, _, h.spacing, _, h.angle, _, whole_iff.2 h.borderStyle, _, h.outline, _,
      h.shadow, _, whole_iff.2 h.alignment, _, whole_iff.2 h.marginL, _, whole_iff.2 h.marginR, _, vertical_iff.2 h.vertical, _,
      whole_iff.2 h.encoding, ?_⟩
    rw [← h.name, name_iff.2 h.fontName]
    have e := (scored_iff r).2 hs
    cases r
    simp only [scored, Look.mk.injEq, true_and]
    exact e.symm

theorem over_iff {α : Type} {keep : List Str} {read : Str → Option α} {Reads : Str → α → Prop}
    (hr : ∀ {t v}, read t = some v ↔ Reads t v) (h0 : [] ∈ keep) {t : Str} (ht : ∀ k ∈ keep, t = k → k = []) {old new : α} :
    over keep read t old = some new ↔ Takes Reads t old new := by
  unfold over Takes
  by_cases h : t ∈ keep
  · rw [if_pos h]
    have : t = [] := ht t h rfl
    subst this
    simp [eq_comm]
  · rw [if_neg h, hr]
    have : t ≠ [] := fun e => h (e ▸ h0)
    simp [this]

theorem overFlag_iff {t : Str} (ht : t ∈ [[], "0".toList, "1".toList]) {old new : Bool} :
    overFlag t old = new ↔ Takes Flag t old new := by
  have e0 : "0".toList = ['0'] := by decide
  have e1 : "1".toList = ['1'] := by decide
  rw [e0, e1] at ht
  unfold overFlag Takes Flag
  rw [e0, e1]
  simp only [List.mem_cons, List.not_mem_nil, or_false] at ht
  rcases ht with rfl | rfl | rfl <;> simp [eq_comm]

theorem overVertical_iff {s : Style} {p r : Look} (hv : (∃ x y, s.marginT = some x ∧ s.marginB = some y) ∨ s.marginV ≠ "0".toList) :
    overVertical s p = some (r.marginT, r.marginB) ↔ TakesVertical s p r := by
  have hk : ∀ t : Str, ∀ k ∈ ([[]] : List Str), t = k → k = [] := by intro t k hk _; simpa using hk
  have u : ∀ {t : Str} {v : Nat}, u16 t = some v ↔ Whole 65536 t v := whole_iff
  have one : (s.marginT = none ∨ s.marginB = none) → s.marginV ≠ ['0'] →
      ((if s.marginV = [] ∨ s.marginV = ['0'] then some (p.marginT, p.marginB) else (u16 s.marginV).map fun v => (v, v)) =
        some (r.marginT, r.marginB) ↔ TakesVertical s p r) := by
    intro hn h0
    have hno : ¬ ∃ x y, s.marginT = some x ∧ s.marginB = some y ∧
        Takes (Whole 65536) x p.marginT r.marginT ∧ Takes (Whole 65536) y p.marginB r.marginB := by
      rintro ⟨x, y, hx, hy, _⟩
      rcases hn with hn | hn <;> simp_all
    unfold TakesVertical
    by_cases he : s.marginV = []
    · rw [if_pos (Or.inl he)]
      simp only [hno, false_or, hn, true_and, Option.some.injEq]
      unfold Takes
      simp only [he, ne_eq, not_true_eq_false, true_and, false_and, or_false]
      exact eq_comm
    · rw [if_neg (by simp [he, h0]), Option.map_eq_some_iff]
      simp only [hno, false_or, hn, true_and, u, Prod.mk.injEq]
      unfold Takes
      simp only [he, ne_eq, not_false_eq_true, true_and, false_and, false_or]
      constructor
      · rintro ⟨v, h, rfl, h2⟩; exact ⟨h, h2.symm⟩
      · rintro ⟨h, h2⟩; exact ⟨_, h, rfl, h2.symm⟩
  have e0 : "0".toList = ['0'] := by decide
  unfold overVertical
  cases hT : s.marginT with
  | none =>
    dsimp only
    rw [hT] at hv
    simp only [reduceCtorEq, false_and, exists_false, false_or, e0] at hv
    exact one (Or.inl hT) hv
  | some x =>
    cases hB : s.marginB with
    | none =>
      dsimp only
      rw [hB] at hv
      simp only [reduceCtorEq, and_false, exists_false, false_or, e0] at hv
      exact one (Or.inr hB) hv
    | some y =>
      dsimp only
      simp only [Option.bind_eq_some_iff, Option.map_eq_some_iff, Prod.mk.injEq, over_iff u (List.mem_singleton.2 rfl) (hk _)]
      unfold TakesVertical
      simp only [hT, hB]
      constructor
      · rintro ⟨t', h1, b', h2, rfl, rfl⟩
        exact Or.inl ⟨x, y, rfl, rfl, h1, h2⟩
      · rintro (⟨x', y', hx, hy, h1, h2⟩ | ⟨h, _⟩)
        · cases hx; cases hy
          exact ⟨_, h1, _, h2, rfl, rfl⟩
        · simp at h

theorem fromStyleWithParent_iff {num : Str → Option Rat} {s : Style} {p r : Look} (ho : Overrides s) :
    fromStyleWithParent num s p = some r ↔ Inherits num parseBgrColor s p r ∧ Scored r := by
  have k1 : ∀ t : Str, ∀ k ∈ ([[]] : List Str), t = k → k = [] := by intro t k hk _; simpa using hk
  have k2 : ∀ {t : Str}, t ≠ "0".toList → ∀ k ∈ ([[], ['0']] : List Str), t = k → k = [] := by
    intro t h k hk e
    have e0 : "0".toList = ['0'] := by decide
    rw [e0] at h
    simp only [List.mem_cons, List.not_mem_nil, or_false] at hk
    rcases hk with rfl | rfl
    · rfl
    · exact absurd e h
  have k3 : ∀ {t : Str}, t ≠ "100".toList → ∀ k ∈ ([[], "100".toList] : List Str), t = k → k = [] := by
    intro t h k hk e
    rcases List.mem_cons.1 hk with rfl | hk
    · rfl
    · rw [List.mem_singleton.1 hk] at e; exact absurd e h
  have n : ∀ {t : Str} {v : Rat}, num t = some v ↔ (fun t x => num t = some x) t v := Iff.rfl
  have m1 : ([] : Str) ∈ ([[]] : List Str) := List.mem_singleton.2 rfl
  have m2 : ([] : Str) ∈ ([[], ['0']] : List Str) := List.mem_cons_self
  have m3 : ([] : Str) ∈ ([[], "100".toList] : List Str) := List.mem_cons_self
  have w8 : ∀ {t : Str} {v : Nat}, u8 t = some v ↔ Whole 256 t v := whole_iff
  have w16 : ∀ {t : Str} {v : Nat}, u16 t = some v ↔ Whole 65536 t v := whole_iff
  unfold fromStyleWithParent
  simp only [Option.bind_eq_some_iff, Option.map_eq_some_iff]
  constructor
  · rintro ⟨a1, h1, a2, h2, a3, h3, a4, h4, a5, h5, b1, j1, b2, j2, b3, j3, b4, j4, b5, j5,
      b6, j6, b7, j7, b8, j8, b9, j9, c1, l1, c2, l2, c3, l3, rfl⟩
    refine ⟨?_, scored_says _⟩
    exact ⟨rfl, name_iff.1 rfl, (over_iff size_iff m2 (k2 ho.fontsize)).1 h1, (over_iff color_iff m1 (k1 _)).1 h2,
      (over_iff color_iff m1 (k1 _)).1 h3, (over_iff color_iff m1 (k1 _)).1 h4, (over_iff color_iff m1 (k1 _)).1 h5,
      (overFlag_iff ho.bold).1 rfl, (overFlag_iff ho.italic).1 rfl, (overFlag_iff ho.underline).1 rfl,
      (overFlag_iff ho.strikeOut).1 rfl, (over_iff percent_iff m3 (k3 ho.scaleX)).1 j1, (over_iff percent_iff m3 (k3 ho.scaleY)).1 j2,
      (over_iff n m2 (k2 ho.spacing)).1 j3, (over_iff n m2 (k2 ho.angle)).1 j4, (over_iff w8 m1 (k1 _)).1 j5,
      (over_iff n m2 (k2 ho.outline)).1 j6, (over_iff n m2 (k2 ho.shadow)).1 j7, (over_iff w8 m1 (k1 _)).1 j8,
      (over_iff w16 m1 (k1 _)).1 j9, (over_iff w16 m1 (k1 _)).1 l1, (overVertical_iff (r := scored _) ho.vertical).1 l2,
      (over_iff w8 m1 (k1 _)).1 l3⟩
  · rintro ⟨h, hs⟩
    refine ⟨_, (over_iff size_iff m2 (k2 ho.fontsize)).2 h.fontSize, _, (over_iff color_iff m1 (k1 _)).2 h.primary, _,
      (over_iff color_iff m1 (k1 _)).2 h.secondary, _, (over_iff color_iff m1 (k1 _)).2 h.outlineColor, _,
      (over_iff color_iff m1 (k1 _)).2 h.back, _, (over_iff percent_iff m3 (k3 ho.scaleX)).2 h.scaleX, _,
      (over_iff percent_iff m3 (k3 ho.scaleY)).2 h.scaleY, _, (over_iff n m2 (k2 ho.spacing)).2 h.spacing, _,
      (over_iff n m2 (k2 ho.angle)).2 h.angle, _, (over_iff w8 m1 (k1 _)).2 h.borderStyle, _,
      (over_iff n m2 (k2 ho.outline)).2 h.outline, _, (over_iff n m2 (k2 ho.shadow)).2 h.shadow, _,
      (over_iff w8 m1 (k1 _)).2 h.alignment, _, (over_iff w16 m1 (k1 _)).2 h.marginL, _, (over_iff w16 m1 (k1 _)).2 h.marginR, _,
      (overVertical_iff ho.vertical).2 h.vertical, _, (over_iff w8 m1 (k1 _)).2 h.encoding, ?_⟩
    rw [← h.name, name_iff.2 h.fontName, (overFlag_iff ho.bold).2 h.bold, (overFlag_iff ho.italic).2 h.italic,
      (overFlag_iff ho.underline).2 h.underline, (overFlag_iff ho.strikeOut).2 h.strikeOut]
    have e := (scored_iff r).2 hs
    cases r
    simp only [scored, Look.mk.injEq, true_and]
    exact e.symm

/-! ## Scaling -/

theorem margin_scaled {k : Rat} (hk : 0 ≤ k) (m : Nat) : MarginScaled k m (scaleMargin k m) := by
  have h0 : (0 : Rat) ≤ (m : Rat) * k := Rat.mul_nonneg (by exact_mod_cast Nat.zero_le m) hk
  have hf : (0 : Int) ≤ ((m : Rat) * k).floor := Rat.le_floor_iff.2 (by simpa using h0)
  obtain ⟨n, hn⟩ := Int.eq_ofNat_of_zero_le hf
  have e : scaleMargin k m = min n 65535 := by unfold scaleMargin; rw [hn]; rfl
  have h1 : (n : Rat) ≤ (m : Rat) * k := by
    have := Rat.floor_le (a := (m : Rat) * k)
    rw [hn] at this
    exact (Rat.intCast_natCast n) ▸ this
  have h2 : (m : Rat) * k < (n : Rat) + 1 := by
    have := Rat.lt_floor_add_one (a := (m : Rat) * k)
    rw [hn, Rat.intCast_add] at this
    exact this
  rw [e]
  refine ⟨?_, Nat.min_le_right _ _, ?_⟩
  · refine Rat.le_trans ?_ h1
    exact Rat.natCast_le_natCast.2 (Nat.min_le_left _ _)
  · intro hlt
    have : min n 65535 = n := by omega
    rw [this]; exact h2

theorem scaleBy_scaled {x y : Rat} (hx : 0 ≤ x) (hy : 0 ≤ y) (r : Look) : Scaled x y r (scaleBy x y r) ∧ Scored (scaleBy x y r) := by
  refine ⟨⟨?_, ?_, ?_, rfl, margin_scaled hx _, margin_scaled hx _, margin_scaled hy _, margin_scaled hy _, rfl⟩, scored_says _⟩
  all_goals
    simp only [scaleBy, scored]
    grind

theorem scaled_one {r : Look} (hl : r.marginL < 65536) (hr : r.marginR < 65536) (ht : r.marginT < 65536) (hb : r.marginB < 65536) :
    Scaled 1 1 r r := by
  have hm : ∀ m : Nat, m < 65536 → MarginScaled 1 m m := by
    intro m h
    refine ⟨by rw [Rat.mul_one]; exact Rat.le_refl, by omega, fun _ => ?_⟩
    rw [Rat.mul_one]
    grind
  exact ⟨by grind, by grind, by grind, by rw [Rat.mul_one], hm _ hl, hm _ hr, hm _ ht, hm _ hb, rfl⟩

theorem _root_.Verif.Spec.Resolved.Says.margins {num : Str → Option Rat} {read : Str → Option Rgba} {s : Style} {r : Look}
    (h : Says num read s r) : r.marginL < 65536 ∧ r.marginR < 65536 ∧ r.marginT < 65536 ∧ r.marginB < 65536 := by
  refine ⟨h.marginL.1, h.marginR.1, ?_⟩
  rcases h.vertical with ⟨x, y, _, _, h1, h2⟩ | ⟨_, h1, h2⟩
  · exact ⟨h1.1, h2.1⟩
  · exact ⟨h1.1, h2 ▸ h1.1⟩

/-! ## Resolutions -/

theorem field_iff {fields : List (Str × Str)} {key v : Str} : field fields key = some v ↔ FirstField fields key v := by
  unfold field FirstField
  rw [Option.map_eq_some_iff]
  constructor
  · rintro ⟨⟨k, w⟩, h, rfl⟩
    obtain ⟨hk, a, b, e, ha⟩ := List.find?_eq_some_iff_append.1 h
    have : k = key := by simpa using hk
    subst this
    exact ⟨a, b, e, fun f hf => by simpa using ha f hf⟩
  · rintro ⟨a, b, e, ha⟩
    exact ⟨(key, v), List.find?_eq_some_iff_append.2 ⟨by simp, a, b, e, fun f hf => by simpa using ha f hf⟩, rfl⟩

theorem resolution_iff {fields : List (Str × Str)} {kx ky : Str} {x y : Nat} :
    resolution fields kx ky = some (x, y) ↔ Resolution fields kx ky x y := by
  unfold resolution Resolution
  simp only [Option.bind_eq_some_iff, Option.map_eq_some_iff, field_iff, Time.parseU32_iff, Prod.mk.injEq]
  constructor
  · rintro ⟨x', ⟨tx, h1, h2⟩, y', ⟨ty, h3, h4⟩, rfl, rfl⟩
    exact ⟨tx, ty, h1, h3, h2, h4⟩
  · rintro ⟨tx, ty, h1, h3, h2, h4⟩
    exact ⟨x, ⟨tx, h1, h2⟩, y, ⟨ty, h3, h4⟩, rfl, rfl⟩

theorem firstInfo_of {sections : List Section} {fields : List (Str × Str)} (h : InfoFields sections fields) :
    firstInfo sections = fields := by
  rcases h with ⟨a, span, b, rfl, ha⟩ | ⟨rfl, h⟩
  · induction a with
    | nil => rfl
    | cons x a ih =>
      cases x with
      | info f sp => exact absurd rfl (ha _ List.mem_cons_self f sp)
      | _ => exact ih fun y hy => ha y (List.mem_cons_of_mem _ hy)
  · induction sections with
    | nil => rfl
    | cons x a ih =>
      cases x with
      | info f sp => exact absurd rfl (h _ List.mem_cons_self f sp)
      | _ => exact ih fun y hy => h y (List.mem_cons_of_mem _ hy)

theorem firstStyles_of {sections : List Section} {styles : List Style} (h : StyleList sections styles) :
    firstStyles sections = some styles := by
  obtain ⟨a, l, b, rfl, ha, rfl⟩ := h
  induction a with
  | nil => rfl
  | cons x a ih =>
    cases x with
    | styles l => exact absurd rfl (ha _ List.mem_cons_self l)
    | _ => exact ih fun y hy => ha y (List.mem_cons_of_mem _ hy)

theorem applyScaling_fits {sections : List Section} {fields : List (Str × Str)} (hf : InfoFields sections fields) {r : Look}
    (hl : r.marginL < 65536) (hr : r.marginR < 65536) (ht : r.marginT < 65536) (hb : r.marginB < 65536) (hs : Scored r) :
    Fits fields r (applyScaling (scaling sections) r) ∧ Scored (applyScaling (scaling sections) r) := by
  have hnn : ∀ a b : Nat, (0 : Rat) ≤ (a : Rat) / (b : Rat) := by
    intro a b
    rw [Rat.div_def]
    refine Rat.mul_nonneg (Rat.natCast_nonneg) ?_
    by_cases h : b = 0
    · subst h; simp
    · exact Rat.le_of_lt (Rat.inv_pos.2 (Rat.natCast_pos.2 (Nat.pos_of_ne_zero h)))
  unfold scaling
  rw [firstInfo_of hf]
  cases h1 : resolution fields "LayoutResX".toList "LayoutResY".toList with
  | none =>
    refine ⟨⟨?_, fun _ => rfl⟩, hs⟩
    intro lx ly px py hL _ _ _
    rw [resolution_iff.2 hL] at h1
    cases h1
  | some L =>
    obtain ⟨lx, ly⟩ := L
    cases h2 : resolution fields "PlayResX".toList "PlayResY".toList with
    | none =>
      refine ⟨⟨?_, fun _ => rfl⟩, hs⟩
      intro _ _ px py _ hP _ _
      rw [resolution_iff.2 hP] at h2
      cases h2
    | some P =>
      obtain ⟨px, py⟩ := P
      dsimp only
      have hno : ¬ ((¬ ∃ x y, Resolution fields "LayoutResX".toList "LayoutResY".toList x y) ∨
          (¬ ∃ x y, Resolution fields "PlayResX".toList "PlayResY".toList x y)) := by
        rintro (h | h)
        · exact h ⟨_, _, resolution_iff.1 h1⟩
        · exact h ⟨_, _, resolution_iff.1 h2⟩
      by_cases he : lx ≠ px ∨ ly ≠ py
      · rw [if_pos he]
        refine ⟨⟨?_, fun h => absurd h hno⟩, (scaleBy_scaled (hnn _ _) (hnn _ _) r).2⟩
        intro lx' ly' px' py' hL hP _ _
        have e1 := resolution_iff.2 hL
        have e2 := resolution_iff.2 hP
        rw [h1] at e1; rw [h2] at e2
        cases e1; cases e2
        exact (scaleBy_scaled (hnn _ _) (hnn _ _) r).1
      · rw [if_neg he]
        refine ⟨⟨?_, fun h => absurd h hno⟩, hs⟩
        intro lx' ly' px' py' hL hP p1 p2
        have e1 := resolution_iff.2 hL
        have e2 := resolution_iff.2 hP
        rw [h1] at e1; rw [h2] at e2
        cases e1; cases e2
        have hx : lx = px := Classical.byContradiction fun h => he (Or.inl h)
        have hy : ly = py := Classical.byContradiction fun h => he (Or.inr h)
        subst hx; subst hy
        have hone : ∀ n : Nat, 0 < n → (n : Rat) / (n : Rat) = 1 := by
          intro n hn
          have : (n : Rat) ≠ 0 := by
            intro e
            have : n = 0 := Rat.natCast_inj.1 (by simpa using e)
            omega
          rw [Rat.div_def, Rat.mul_inv_cancel _ this]
        rw [hone _ p1, hone _ p2]
        exact scaled_one hl hr ht hb

/-! ## The analyzer -/

theorem getLast_filterMap {α β : Type} {f : α → Option β} {x : β} {l : List α} :
    (l.filterMap f).getLast? = some x ↔ ∃ a s b, l = a ++ s :: b ∧ f s = some x ∧ ∀ t ∈ b, f t = none := by
  induction l with
  | nil => simp
  | cons y l ih =>
    have none_iff : (l.filterMap f).getLast? = none ↔ ∀ t ∈ l, f t = none := by
      rw [List.getLast?_eq_none_iff, List.filterMap_eq_nil_iff]
    constructor
    · intro h
      cases hl : (l.filterMap f).getLast? with
      | none =>
        have hn := none_iff.1 hl
        have e : l.filterMap f = [] := List.filterMap_eq_nil_iff.2 hn
        cases hy : f y with
        | none => rw [List.filterMap_cons_none hy, e] at h; cases h
        | some z =>
          rw [List.filterMap_cons_some hy, e] at h
          refine ⟨[], y, l, rfl, ?_, hn⟩
          rw [hy]; simpa using h
      | some z =>
        have : (List.filterMap f (y :: l)).getLast? = some z := by
          cases hy : f y with
          | none => rw [List.filterMap_cons_none hy, hl]
          | some w => rw [List.filterMap_cons_some hy, List.getLast?_cons, hl]; rfl
        rw [this] at h
        cases h
        obtain ⟨a, s, b, e, h1, h2⟩ := ih.1 hl
        exact ⟨y :: a, s, b, by rw [e]; rfl, h1, h2⟩
    · rintro ⟨a, s, b, e, h1, h2⟩
      cases a with
      | nil =>
        cases e
        rw [List.filterMap_cons_some h1, List.filterMap_eq_nil_iff.2 h2]
        rfl
      | cons y' a =>
        cases e
        have := ih.2 ⟨a, s, b, rfl, h1, h2⟩
        cases hy : f y with
        | none => rw [List.filterMap_cons_none hy, this]
        | some w => rw [List.filterMap_cons_some hy, List.getLast?_cons, this]; rfl

theorem resolved_get {num : Str → Option Rat} {sections : List Section} {styles : List Style} (h : StyleList sections styles) :
    ∃ m, resolved num sections = some m ∧ ∀ n r', m.get n = some r' ↔
      ∃ a s b r, styles = a ++ s :: b ∧ s.name = n ∧ fromStyle num s = some r ∧ (∀ t ∈ b, t.name = n → fromStyle num t = none) ∧
        r' = applyScaling (scaling sections) r := by
  unfold resolved
  rw [firstStyles_of h]
  dsimp only
  obtain ⟨m, h1, h2⟩ := Props.C23_never_inherits (fun s : Styles.Style Style => fromStyle num s.body)
    (fun s p => fromStyleWithParent num s.body p) (applyScaling (scaling sections)) (styles.map node)
  refine ⟨m, h1, fun n r' => ?_⟩
  have e : (styles.map node).filterMap (fun s => if s.name = n then fromStyle num s.body else none) =
      styles.filterMap (fun s => if s.name = n then fromStyle num s else none) := by
    rw [List.filterMap_map]; rfl
  rw [h2 n, e, Option.map_eq_some_iff]
  constructor
  · rintro ⟨r, hg, rfl⟩
    obtain ⟨a, s, b, e, hs, hb⟩ := getLast_filterMap.1 hg
    by_cases hn : s.name = n
    · rw [if_pos hn] at hs
      refine ⟨a, s, b, r, e, hn, hs, fun t ht hnt => ?_, rfl⟩
      have := hb t ht
      rwa [if_pos hnt] at this
    · rw [if_neg hn] at hs; cases hs
  · rintro ⟨a, s, b, r, e, hn, hs, hb, rfl⟩
    refine ⟨r, getLast_filterMap.2 ⟨a, s, b, e, by rw [if_pos hn]; exact hs, fun t ht => ?_⟩, rfl⟩
    by_cases hnt : t.name = n
    · rw [if_pos hnt]; exact hb t ht hnt
    · rw [if_neg hnt]

theorem unreadable_iff {num : Str → Option Rat} {t : Style} : fromStyle num t = none ↔ ¬ ∃ r, Says num parseBgrColor t r := by
  constructor
  · rintro h ⟨r, hr⟩
    have hs : Says num parseBgrColor t (scored r) :=
      ⟨hr.name, hr.fontName, hr.fontSize, hr.primary, hr.secondary, hr.outlineColor, hr.back, hr.bold, hr.italic, hr.underline,
        hr.strikeOut, hr.scaleX, hr.scaleY, hr.spacing, hr.angle, hr.borderStyle, hr.outline, hr.shadow, hr.alignment, hr.marginL,
        hr.marginR, hr.vertical, hr.encoding⟩
    have := fromStyle_iff.2 ⟨hs, scored_says r⟩
    rw [h] at this
    cases this
  · intro h
    cases e : fromStyle num t with
    | none => rfl
    | some r => exact absurd ⟨r, (fromStyle_iff.1 e).1⟩ h

/-! ## Conflicts -/

theorem mem_missing {styles : List Style} {n p : Str} :
    Conflict.missingParent n p ∈ missing styles ↔ ∃ s ∈ styles, s.name = n ∧ s.parent = some p ∧ ∀ q ∈ styles, q.name ≠ p := by
  unfold missing
  rw [List.mem_filterMap]
  constructor
  · rintro ⟨s, hs, h⟩
    cases hp : s.parent with
    | none => rw [hp] at h; cases h
    | some p' =>
      rw [hp] at h
      dsimp only at h
      by_cases ha : styles.any (fun q => q.name = p') = true
      · rw [if_pos ha] at h; cases h
      · rw [if_neg ha] at h
        cases h
        refine ⟨s, hs, rfl, hp, fun q hq e => ha ?_⟩
        exact List.any_eq_true.2 ⟨q, hq, by simpa using e⟩
  · rintro ⟨s, hs, rfl, hp, hq⟩
    refine ⟨s, hs, ?_⟩
    rw [hp]
    dsimp only
    rw [if_neg]
    intro ha
    obtain ⟨q, h1, h2⟩ := List.any_eq_true.1 ha
    exact hq q h1 (by simpa using h2)

theorem mem_keys {styles : List Style} {n : Str} : n ∈ Styles.keys (styles.map node) ↔ ∃ s ∈ styles, s.name = n := by
  rw [(Styles.keys_spec _).2]
  constructor
  · rintro ⟨x, hx, rfl⟩
    obtain ⟨s, hs, rfl⟩ := List.mem_map.1 hx
    exact ⟨s, hs, rfl⟩
  · rintro ⟨s, hs, rfl⟩
    exact ⟨node s, List.mem_map.2 ⟨s, hs, rfl⟩, rfl⟩

theorem mem_duplicates {styles : List Style} {l : List Str} :
    Conflict.duplicate l ∈ duplicates styles ↔
      ∃ n, l = (styles.filter (fun s => s.name = n)).map (·.name) ∧ 2 ≤ l.length := by
  unfold duplicates
  rw [List.mem_filterMap]
  constructor
  · rintro ⟨n, _, h⟩
    dsimp only at h
    by_cases hl : ((styles.filter (fun s => s.name = n)).map (·.name)).length > 1
    · rw [if_pos hl] at h
      cases h
      exact ⟨n, rfl, hl⟩
    · rw [if_neg hl] at h; cases h
  · rintro ⟨n, rfl, hl⟩
    refine ⟨n, ?_, ?_⟩
    · rw [mem_keys]
      cases hf : styles.filter (fun s => s.name = n) with
      | nil => rw [hf] at hl; simp at hl
      | cons s t =>
        have : s ∈ styles.filter (fun s => s.name = n) := by rw [hf]; exact List.mem_cons_self
        obtain ⟨h1, h2⟩ := List.mem_filter.1 this
        exact ⟨s, h1, by simpa using h2⟩
    · dsimp only
      rw [if_pos (by omega)]

theorem mem_circular {styles : List Style} : (∃ l, Conflict.circular l ∈ circular styles) ↔ Sty.Circular (styles.map node) := by
  obtain ⟨b, h1, h2⟩ := Props.C58_cycle_check_exact (styles.map node)
  unfold circular
  dsimp only
  rw [h1, ← h2]
  cases b with
  | true => simp
  | false => simp

theorem mem_conflicts {check : Bool} {sections : List Section} {styles : List Style} (h : StyleList sections styles) (c : Conflict) :
    c ∈ conflicts check sections ↔ c ∈ missing styles ∨ c ∈ circular styles ∨ (check = true ∧ c ∈ duplicates styles) := by
  unfold conflicts
  rw [firstStyles_of h]
  dsimp only
  cases check <;> simp

theorem missing_form {styles : List Style} {c : Conflict} (h : c ∈ missing styles) : ∃ n p, c = .missingParent n p := by
  unfold missing at h
  obtain ⟨s, _, hs⟩ := List.mem_filterMap.1 h
  cases hp : s.parent with
  | none => rw [hp] at hs; cases hs
  | some p =>
    rw [hp] at hs
    dsimp only at hs
    by_cases ha : styles.any (fun q => q.name = p) = true
    · rw [if_pos ha] at hs; cases hs
    · rw [if_neg ha] at hs; cases hs; exact ⟨_, _, rfl⟩

theorem circular_form {styles : List Style} {c : Conflict} (h : c ∈ circular styles) : ∃ l, c = .circular l := by
  unfold circular at h
  dsimp only at h
  split at h
  · exact ⟨_, List.mem_singleton.1 h⟩
  · cases h

theorem duplicates_form {styles : List Style} {c : Conflict} (h : c ∈ duplicates styles) : ∃ l, c = .duplicate l := by
  unfold duplicates at h
  obtain ⟨n, _, hs⟩ := List.mem_filterMap.1 h
  dsimp only at hs
  split at hs
  · cases hs; exact ⟨_, rfl⟩
  · cases hs

/-! ## Inheritance information -/

theorem infoStep_other {styles : List Style} {m : Map Str Info} {s : Style} {n : Str} (h : s.name ≠ n) :
    (infoStep styles m s).get n = m.get n := by
  have hn : n ≠ s.name := fun e => h e.symm
  unfold infoStep
  split
  · split
    · split <;> exact Map.get_insert_ne hn
    · rfl
  · exact Map.get_insert_ne hn

theorem infoFold_other {styles : List Style} {n : Str} :
    ∀ (l : List Style) (m : Map Str Info), (∀ s ∈ l, s.name ≠ n) → (l.foldl (infoStep styles) m).get n = m.get n
  | [], _, _ => rfl
  | s :: l, m, h => by
    rw [List.foldl_cons, infoFold_other l _ (fun t ht => h t (List.mem_cons_of_mem _ ht)), infoStep_other (h s List.mem_cons_self)]

theorem info_get {sections : List Section} {a b : List Style} {s : Style} (h : StyleList sections (a ++ s :: b))
    (ha : ∀ t ∈ a, t.name ≠ s.name) (hb : ∀ t ∈ b, t.name ≠ s.name) :
    (info sections).get s.name = (infoStep (a ++ s :: b) [] s).get s.name := by
  unfold info
  rw [firstStyles_of h]
  dsimp only
  rw [List.foldl_append, List.foldl_cons, infoFold_other b _ hb]
  have h0 : (a.foldl (infoStep (a ++ s :: b)) []).get s.name = none := infoFold_other a [] ha
  generalize a.foldl (infoStep (a ++ s :: b)) [] = m at h0 ⊢
  unfold infoStep
  split
  · split
    · rw [h0, Map.get_nil]
      dsimp only
      rw [Map.get_insert_self, Map.get_insert_self]
    · exact h0
  · rw [Map.get_insert_self, Map.get_insert_self]

/-! ## Validation -/

theorem resolved_wf {num : Str → Option Rat} {sections : List Section} {m : Map Str Look} (h : resolved num sections = some m) :
    m.WF := by
  have fold : ∀ {α : Type} (f : Map Str Look → α → Map Str Look) (_ : ∀ m x, m.WF → (f m x).WF) (l : List α) (m : Map Str Look),
      m.WF → (l.foldl f m).WF := by
    intro α f hf l
    induction l with
    | nil => exact fun _ h => h
    | cons x l ih => exact fun m h => ih _ (hf m x h)
  unfold resolved at h
  split at h
  · cases h; exact Map.wf_nil
  · unfold Styles.analyze at h
    split at h
    · cases h
    · cases h
      unfold Styles.resolveOrdered
      refine fold _ (fun m x hm => ?_) _ _ Map.wf_nil
      dsimp only
      split
      · exact Map.wf_insert hm _ _
      · exact hm
    · cases h
      unfold Styles.resolvePlain
      refine fold _ (fun m x hm => ?_) _ _ Map.wf_nil
      dsimp only
      split
      · exact Map.wf_insert hm _ _
      · exact hm

end Verif.Resolved
