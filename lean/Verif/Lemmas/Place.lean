import Verif.Spec.Place
import Verif.Lemmas.Drawing
namespace Verif.Place
open Verif Verif.Spec.Place
open Verif.Drawing (Pt progress moveTimes)

theorem offset_parts {a : Nat} {c r : Part} (hn : Numpad a c r) (at_ : Pt) (w h : Rat) :
    c.of (alignOffset at_ w h a).1 w = at_.1 ∧ r.of (alignOffset at_ w h a).2 h = at_.2 := by
  cases hn <;> simp [alignOffset, mapped, Part.of] <;> grind

theorem margin_is {num : Str → Option Rat} {ev st : Str} {m : Rat} (n0 : num [] = none) (n1 : num ['0'] = some 0)
    (hz : num ev = some 0 → ev = ['0']) (h : MarginIs num ev st m) : margin num ev (some st) = m := by
  unfold margin
  simp only [Option.bind_some]
  rcases h with ⟨n, h1, h2, rfl⟩ | ⟨h1, h2⟩
  · have : ¬ (ev = [] ∨ ev = ['0']) := by
      rintro (rfl | rfl)
      · rw [n0] at h1; cases h1
      · rw [n1] at h1; exact h2 (Option.some.inj h1).symm
    rw [if_neg this, h1]
    rfl
  · have hs : (num st).getD 0 = m := by
      rcases h2 with h2 | ⟨h2, rfl⟩
      · rw [h2]; rfl
      · rw [h2]; rfl
    by_cases hc : ev = [] ∨ ev = ['0']
    · rw [if_pos hc, hs]
    · rw [if_neg hc, hs]
      rcases h1 with h1 | h1
      · rw [h1]; rfl
      · exact absurd (.inr (hz h1)) hc

/-- The anchor of an alignment. -/
theorem posAlign_parts {num : Str → Option Rat} {p : Pipe} {e : Ev} {s : Style} {a : Nat} {c r : Part} {ml mr mv : Rat}
    (hn : Numpad a c r) (hs : p.styles.get e.style = some s) (hy : p.resY ≠ 0)
    (h1 : margin num e.marginL (some s.marginL) = ml) (h2 : margin num e.marginR (some s.marginR) = mr)
    (h3 : margin num e.marginV (some s.marginV) = mv) (hc : c = .middle → ml = mr) :
    (posAlign num p a e).1 = c.of (ml * p.sx) ((p.w : Rat) - mr * p.sx - ml * p.sx) ∧
    (posAlign num p a e).2 = r.of (mv * p.sy) ((p.h : Rat) - mv * p.sy - mv * p.sy) := by
  have e1 : p.resY * p.sy = (p.h : Rat) := by
    unfold Pipe.sy
    rw [Rat.div_def]
    have := Rat.mul_inv_cancel p.resY hy
    grind
  unfold posAlign
  rw [hs]
  simp only [Option.map_some, h1, h2, h3]
  generalize p.sx = sx at *
  generalize p.sy = sy at *
  cases hn <;> simp [mapped, Part.of] <;> grind

theorem aligned_eq {a : Nat} {c rw_ : Part} {s : Style} {r : Run} (hn : Numpad a c rw_) (h : Aligned a s r) :
    r.align.getD (defaultAlignment (some s)) = a := by
  rcases h with h | ⟨h1, h2⟩
  · rw [h]; rfl
  · rw [h1]
    unfold defaultAlignment
    simp only [Option.map_some, Option.getD_some, Option.getD_none, h2]
    cases hn <;> decide

/-- Runs that are placed by a rule for the vertical position follow one another. -/
theorem runs_follow {num : Str → Option Rat} {p : Pipe} {e : Ev} {time dflt : Nat} {l : Layout} (P : Run → Rat → Prop)
    (rs : List Run) (h : ∀ r ∈ rs, ∀ x, ∃ y, positionSegment num p e time dflt l r (some x) = .ok ((x, y), some x) ∧ P r y)
    (x : Rat) : ∃ ps, runs num p e time dflt l (some x) rs = .ok ps ∧ Follow x rs ps ∧ ∀ q ∈ rs.zip ps, P q.1 q.2.2 := by
  induction rs generalizing x with
  | nil => exact ⟨[], rfl, trivial, fun q hq => by cases hq⟩
  | cons r rs ih =>
    obtain ⟨y, h1, h2⟩ := h r List.mem_cons_self x
    obtain ⟨ps, h3, h4, h5⟩ := ih (fun r hr => h r (List.mem_cons_of_mem _ hr)) (x + r.advance * r.fsx)
    refine ⟨(x, y) :: ps, ?_, ⟨rfl, h4⟩, ?_⟩
    · rw [runs, h1]
      dsimp only [Option.map_some]
      rw [h3]
    · intro q hq
      rcases List.mem_cons.1 hq with rfl | hq
      · exact h2
      · exact h5 q hq

/-- A whole line. -/
theorem line_follow {num : Str → Option Rat} {p : Pipe} {e : Ev} {time dflt : Nat} {l : Layout} (P : Run → Rat → Prop)
    (r : Run) (rs : List Run) (x0 : Rat)
    (h0 : ∃ y, positionSegment num p e time dflt l r none = .ok ((x0, y), some x0) ∧ P r y)
    (h : ∀ r ∈ rs, ∀ x, ∃ y, positionSegment num p e time dflt l r (some x) = .ok ((x, y), some x) ∧ P r y) :
    ∃ ps, runs num p e time dflt l none (r :: rs) = .ok ps ∧ Follow x0 (r :: rs) ps ∧ ∀ q ∈ (r :: rs).zip ps, P q.1 q.2.2 := by
  obtain ⟨y, h1, h2⟩ := h0
  obtain ⟨ps, h3, h4, h5⟩ := runs_follow P rs h (x0 + r.advance * r.fsx)
  refine ⟨(x0, y) :: ps, ?_, ⟨rfl, h4⟩, ?_⟩
  · rw [runs, h1]
    dsimp only [Option.map_some]
    rw [h3]
  · intro q hq
    rcases List.mem_cons.1 hq with rfl | hq
    · exact h2
    · exact h5 q hq

theorem width_eq {r : Run} {rs : List Run} (h : Measured (r :: rs)) :
    (if decide ((r :: rs).length > 1) = true then total (r :: rs) else r.width) = len (r :: rs) := by
  cases rs with
  | nil =>
    rw [if_neg (by simp)]
    rw [h.2 r rfl]
    simp only [len, List.map_cons, List.map_nil, List.sum_cons, List.sum_nil]
    grind
  | cons q rs =>
    rw [if_pos (by simp)]
    unfold total len
    rw [if_pos (by simp)]
    congr 1
    exact List.map_congr_left h.1

theorem pinned_tags {p : Pipe} {e : Ev} {time : Nat} {r : Run} {at_ : Pt} (h : Pinned p e time r at_)
    (hx : (p.layout.getD (p.resX, p.resY)).1 ≠ 0 ∧ p.resX ≠ 0) (hy : (p.layout.getD (p.resX, p.resY)).2 ≠ 0 ∧ p.resY ≠ 0)
    (ht : ∀ m, r.move = some m → e.start + m.t1 < 2 ^ 32 ∧ e.start + m.t2 < 2 ^ 32) :
    posTags p r.pos r.move e time = .ok (some at_) := by
  have on : ∀ q : Pt, OnFrame p q at_ → (toScript p q).1 * p.sx = at_.1 ∧ (toScript p q).2 * p.sy = at_.2 := by
    intro q hq
    have key : ∀ (l res w q a : Rat), l ≠ 0 → res ≠ 0 → a * l = q * w → q * (res / l) * (w / res) = a := by
      intro l res w q a hl hr he
      rw [Rat.div_def, Rat.div_def]
      have h1 := Rat.mul_inv_cancel l hl
      have h2 := Rat.mul_inv_cancel res hr
      have : q * (res * l⁻¹) * (w * res⁻¹) = (q * w) * l⁻¹ * (res * res⁻¹) := by grind
      rw [this, h2, ← he]
      have : a * l * l⁻¹ * 1 = a * (l * l⁻¹) := by grind
      rw [this, h1, Rat.mul_one]
    have key2 : ∀ (res w q a : Rat), res ≠ 0 → a * res = q * w → q * (w / res) = a := by
      intro res w q a hr he
      rw [Rat.div_def]
      have h2 := Rat.mul_inv_cancel res hr
      have : q * (w * res⁻¹) = (q * w) * res⁻¹ := by grind
      rw [this, ← he]
      have : a * res * res⁻¹ = a * (res * res⁻¹) := by grind
      rw [this, h2, Rat.mul_one]
    unfold OnFrame at hq
    unfold toScript
    cases hl : p.layout with
    | none =>
      rw [hl] at hq
      exact ⟨key2 _ _ _ _ hx.2 hq.1, key2 _ _ _ _ hy.2 hq.2⟩
    | some l =>
      rw [hl] at hq hx hy
      exact ⟨key _ _ _ _ _ hx.1 hx.2 hq.1, key _ _ _ _ _ hy.1 hy.2 hq.2⟩
  have lin : ∀ (m : Segment.Move) (k : Rat),
      (toScript p (m.x1, m.y1)).1 + ((toScript p (m.x2, m.y2)).1 - (toScript p (m.x1, m.y1)).1) * k =
        (toScript p (m.x1 + (m.x2 - m.x1) * k, m.y1 + (m.y2 - m.y1) * k)).1 ∧
      (toScript p (m.x1, m.y1)).2 + ((toScript p (m.x2, m.y2)).2 - (toScript p (m.x1, m.y1)).2) * k =
        (toScript p (m.x1 + (m.x2 - m.x1) * k, m.y1 + (m.y2 - m.y1) * k)).2 := by
    intro m k
    unfold toScript
    cases p.layout with
    | none => exact ⟨rfl, rfl⟩
    | some l => constructor <;> simp only <;> grind
  have mt : ∀ (m : Segment.Move) (a b : Nat), r.move = some m →
      (a, b) = (if m.t1 = 0 ∧ m.t2 = 0 then (e.start, e.stop) else (e.start + m.t1, e.start + m.t2)) →
      moveTimes e.start e.stop m.t1 m.t2 = .ok (a, b) := by
    intro m a b hm hab
    unfold moveTimes
    by_cases h0 : m.t1 = 0 ∧ m.t2 = 0
    · rw [if_pos h0] at hab ⊢
      rw [hab]
    · rw [if_neg h0] at hab ⊢
      rw [if_pos (by have := ht m hm; exact this), hab]
  have fin : ∀ (m : Segment.Move) (a b : Nat) (k : Rat), r.pos = none → r.move = some m →
      moveTimes e.start e.stop m.t1 m.t2 = .ok (a, b) → progress time a b = k →
      OnFrame p (m.x1 + (m.x2 - m.x1) * k, m.y1 + (m.y2 - m.y1) * k) at_ → posTags p r.pos r.move e time = .ok (some at_) := by
    intro m a b k hp hm h1 h2 h3
    unfold posTags
    rw [hp, hm]
    dsimp only
    rw [h1]
    dsimp only
    rw [h2, (lin m k).1, (lin m k).2, (on _ h3).1, (on _ h3).2]
  cases h with
  | @pos q h1 h2 =>
    unfold posTags
    rw [h1]
    dsimp only
    rw [(on q h2).1, (on q h2).2]
  | @before m a b h1 h2 h3 h4 h5 =>
    refine fin m a b 0 h1 h2 (mt m a b h2 h3) (by rw [progress, if_pos h4]) ?_
    have e1 : m.x1 + (m.x2 - m.x1) * 0 = m.x1 := by grind
    have e2 : m.y1 + (m.y2 - m.y1) * 0 = m.y1 := by grind
    rw [e1, e2]
    exact h5
  | @after m a b h1 h2 h3 h4 h5 h6 =>
    refine fin m a b 1 h1 h2 (mt m a b h2 h3) (by rw [progress, if_neg (by omega), if_pos h5]) ?_
    have e1 : m.x1 + (m.x2 - m.x1) * 1 = m.x2 := by grind
    have e2 : m.y1 + (m.y2 - m.y1) * 1 = m.y2 := by grind
    rw [e1, e2]
    exact h6
  | @between m a b k h1 h2 h3 h4 h5 h6 h7 =>
    refine fin m a b k h1 h2 (mt m a b h2 h3) ?_ h7
    rw [progress, if_neg (by omega), if_neg (by omega)]
    have cast : ∀ x y : Nat, y ≤ x → ((x - y : Nat) : Rat) = (x : Rat) - (y : Rat) := by
      intro x y hxy
      have e : ((x - y : Nat) : Rat) + (y : Rat) = (x : Rat) := by
        rw [← Rat.natCast_add]
        congr 1
        omega
      grind
    rw [cast _ _ (by omega), cast _ _ (by omega), ← h6, Rat.div_def]
    have hne : (b : Rat) - (a : Rat) ≠ 0 := by
      intro h0
      have : (b : Rat) = (a : Rat) := by grind
      have := Rat.natCast_inj.1 this
      omega
    rw [Rat.mul_assoc, Rat.mul_inv_cancel _ hne, Rat.mul_one]

end Verif.Place
