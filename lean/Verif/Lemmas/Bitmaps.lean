import Verif.Spec.Bitmaps
import Verif.Lemmas.Dirty
import Verif.Props.Dirty
namespace Verif.Bitmaps
open Verif Verif.Dirty Verif.Spec.Drt Verif.Spec.Btm

theorem same_refl (p : Pixmap) : Same p p := ⟨rfl, rfl, fun _ _ _ _ _ _ => rfl⟩

theorem same_symm {p q : Pixmap} (h : Same p q) : Same q p :=
  ⟨h.1.symm, h.2.1.symm, fun x y h1 h2 h3 h4 => (h.2.2 x y h1 (by rw [h.1]; exact h2) h3 (by rw [h.2.1]; exact h4)).symm⟩

theorem same_trans {p q r : Pixmap} (h : Same p q) (k : Same q r) : Same p r :=
  ⟨h.1.trans k.1, h.2.1.trans k.2.1, fun x y h1 h2 h3 h4 =>
    (h.2.2 x y h1 h2 h3 h4).trans (k.2.2 x y h1 (by rw [← h.1]; exact h2) h3 (by rw [← h.2.1]; exact h4))⟩

theorem empty_blank (p : Pixmap) (w h : Int) (hw : p.w = w) (hh : p.h = h) (he : Empty p) : Same p (blank w h) :=
  ⟨hw, hh, fun x y h1 h2 h3 h4 => he x y h1 h2 h3 h4⟩

theorem empty_not_visible {p : Pixmap} (he : Empty p) (x y : Int) : ¬ Visible p x y := by
  intro ⟨h1, h2, h3, h4, h5⟩
  rw [he x y h1 h2 h3 h4] at h5
  exact h5 rfl

theorem crop_empty {p : Pixmap} (he : Empty p) (hint : Option Corners) : crop p hint = none := by
  cases h : crop p hint with
  | none => rfl
  | some b =>
    obtain ⟨_, h2⟩ := crop_spec p hint (fun x y hv => absurd hv (empty_not_visible he x y))
    obtain ⟨_, _, _, ⟨y, hy⟩, _⟩ := h2 b h
    exact absurd hy (empty_not_visible he _ _)

/-- Before and after each layer: both pixmaps have the size of the frame and the scratch pixmap is empty. -/
structure Inv {κ : Type} (w h : Int) (s : State κ) : Prop where
  pw : s.pixmap.w = w
  ph : s.pixmap.h = h
  sw : s.scratch.w = w
  sh : s.scratch.h = h
  empty : Empty s.scratch

theorem inHint_boxes (w h : Int) (boxes : List Corners) (p : Pixmap)
    (hb : boxes ≠ [] → ∀ x y, Visible p x y → ∃ c ∈ boxes, c.x0 ≤ x ∧ x ≤ c.x1 ∧ c.y0 ≤ y ∧ y ≤ c.y1) (x y : Int) (hv : Visible p x y) :
    InHint (boxes.foldl note none) x y := by
  cases boxes with
  | nil => intro c hc; simp at hc
  | cons b bs =>
    obtain ⟨c, hc, h1, h2, h3, h4⟩ := hb (by simp) x y hv
    obtain ⟨d, hd, k1, k2, k3, k4⟩ := Props.C27_noted (b :: bs) none c (.inl hc)
    intro e he
    rw [hd] at he
    simp only [Option.some.injEq] at he
    subst he
    omega

theorem visible_same {p q : Pixmap} (h : Same p q) {x y : Int} (hv : Visible p x y) : Visible q x y := by
  obtain ⟨h1, h2, h3, h4, h5⟩ := hv
  refine ⟨h1, by rw [← h.1]; exact h2, h3, by rw [← h.2.1]; exact h4, ?_⟩
  rw [← h.2.2 x y h1 h2 h3 h4]; exact h5

theorem take_drawn {κ : Type} (w h : Int) (boxes : List Corners) (draw : Pixmap → Pixmap) (hs : Sound w h (.drawn boxes draw : Layer κ))
    (s : State κ) (hi : Inv w h s) :
    ∀ t : List (Out κ) × State κ, t = takeScratch (⟨s.pixmap, draw s.scratch, none, boxes.foldl note none⟩ : State κ) →
    Shows w h (.drawn boxes draw) t.1 ∧ Inv w h t.2 ∧ t.2.pixmap = s.pixmap ∧ t.2.sink = none := by
  intro t ht
  obtain ⟨hp, hb⟩ := hs
  have hsame : Same (draw s.scratch) (draw (blank w h)) := hp.local_ _ _ (empty_blank _ w h hi.sw hi.sh hi.empty)
  have hsz := hp.size s.scratch
  have hw : (draw s.scratch).w = w := hsz.1.trans hi.sw
  have hh : (draw s.scratch).h = h := hsz.2.trans hi.sh
  have hqw : (draw (blank w h)).w = w := hsame.1.symm.trans hw
  have hqh : (draw (blank w h)).h = h := hsame.2.1.symm.trans hh
  have hplain : ∀ x y, 0 ≤ x → x < w → 0 ≤ y → y < h → ((draw s.scratch).px x y).a = 0 → (draw s.scratch).px x y = ⟨0, 0⟩ := by
    intro x y h1 h2 h3 h4 ha
    have e := hsame.2.2 x y h1 (by omega) h3 (by omega)
    rw [e] at ha ⊢
    exact hp.plain _ (fun _ _ _ => rfl) x y ha
  have hhint : ∀ x y, Visible (draw s.scratch) x y → InHint (boxes.foldl note none) x y :=
    fun x y hv => inHint_boxes w h boxes (draw (blank w h)) hb x y (visible_same hsame hv)
  obtain ⟨c1, c2⟩ := crop_spec (draw s.scratch) (boxes.foldl note none) hhint
  subst ht
  unfold takeScratch
  simp only
  cases hc : crop (draw s.scratch) (boxes.foldl note none) with
  | none =>
    have hn := c1 hc
    have hem : Empty (draw s.scratch) := by
      intro x y h1 h2 h3 h4
      refine hplain x y h1 (by omega) h3 (by omega) ?_
      refine Classical.byContradiction fun ha => hn x y ⟨h1, h2, h3, h4, ha⟩
    refine ⟨.nothing _ _ ?_, ⟨hi.pw, hi.ph, hw, hh, hem⟩, rfl, rfl⟩
    intro x y h1 h2 h3 h4
    rw [← hsame.2.2 x y h1 (by omega) h3 (by omega)]
    exact hem x y h1 (by omega) h3 (by omega)
  | some b =>
    obtain ⟨b1, b2, b3, _⟩ := c2 b hc
    have hout : ∀ x y, 0 ≤ x → x < w → 0 ≤ y → y < h → ¬ (b.x ≤ x ∧ x < b.x + b.w ∧ b.y ≤ y ∧ y < b.y + b.h) →
        (draw s.scratch).px x y = ⟨0, 0⟩ := by
      intro x y h1 h2 h3 h4 hn
      refine hplain x y h1 h2 h3 h4 ?_
      refine Classical.byContradiction fun ha => hn (b1 x y ⟨h1, by omega, h3, by omega, ha⟩)
    have hdim : (clearRegion (draw s.scratch) b.x b.y b.w b.h).w = (draw s.scratch).w ∧
        (clearRegion (draw s.scratch) b.x b.y b.w b.h).h = (draw s.scratch).h := by
      unfold clearRegion; simp only; split <;> exact ⟨rfl, rfl⟩
    refine ⟨.picture _ _ b ⟨b3.1, b3.2.2.1, by omega, by omega, ?_⟩, ⟨hi.pw, hi.ph, hdim.1.trans hw, hdim.2.trans hh, ?_⟩, rfl, rfl⟩
    · intro x y h1 h2 h3 h4
      have e := hsame.2.2 x y h1 (by omega) h3 (by omega)
      split
      · rw [b2, ← e]; congr 1 <;> omega
      · rename_i hn
        rw [← e]; exact hout x y h1 (by omega) h3 (by omega) hn
    · intro x y h1 h2 h3 h4
      rw [hdim.1] at h2
      rw [hdim.2] at h4
      simp only
      rw [clear_px _ _ _ _ _ x y ⟨h1, h2, h3, h4⟩]
      split
      · rfl
      · rename_i hn; exact hout x y h1 (by omega) h3 (by omega) hn

theorem emitLayer_sound {κ : Type} (comp : Out κ → Pixmap → Pixmap) (w h : Int) (l : Layer κ) (hs : Sound w h l) (s : State κ)
    (hi : Inv w h s) :
    ∃ out s', emitLayer comp s l = (.ok out, s') ∧ Shows w h l out ∧ Inv w h s' ∧ s'.pixmap = s.pixmap ∧ s'.sink = none := by
  cases l with
  | shapes bs =>
    cases bs with
    | nil =>
      refine ⟨[], { s with sink := none, box := none }, ?_, .shapes _, ⟨hi.pw, hi.ph, hi.sw, hi.sh, hi.empty⟩, rfl, rfl⟩
      simp [emitLayer, compositeLayer, swap, takeScratch, crop_empty hi.empty]
    | cons b bs =>
      refine ⟨b :: bs, { s with sink := none, box := none }, ?_, .shapes _, ⟨hi.pw, hi.ph, hi.sw, hi.sh, hi.empty⟩, rfl, rfl⟩
      simp [emitLayer, compositeLayer, swap]
  | tile b draw =>
    refine ⟨[b], { s with sink := none, box := none }, ?_, .tile _ _, ⟨hi.pw, hi.ph, hi.sw, hi.sh, hi.empty⟩, rfl, rfl⟩
    simp [emitLayer, compositeLayer, swap]
  | drawn boxes draw =>
    obtain ⟨h1, h2, h3, h4⟩ := take_drawn w h boxes draw hs s hi _ rfl
    exact ⟨_, _, rfl, h1, h2, h3, h4⟩
  | fails => exact absurd hs (by simp [Sound])

theorem emitAll_sound {κ : Type} (comp : Out κ → Pixmap → Pixmap) (w h : Int) (ls : List (Layer κ)) : ∀ (s : State κ),
    (∀ l ∈ ls, Sound w h l) → Inv w h s →
    ∃ out s', emitAll comp s ls = (.ok out, s') ∧ ShowsAll w h ls out ∧ Inv w h s' ∧ s'.pixmap = s.pixmap := by
  induction ls with
  | nil => intro s _ hi; exact ⟨[], s, rfl, .nil, hi, rfl⟩
  | cons l ls ih =>
    intro s hs hi
    obtain ⟨out, s1, e1, h1, i1, p1, _⟩ := emitLayer_sound comp w h l (hs l (by simp)) s hi
    obtain ⟨rest, s2, e2, h2, i2, p2⟩ := ih s1 (fun l hl => hs l (by simp [hl])) i1
    refine ⟨out ++ rest, s2, ?_, .cons _ _ _ _ h1 h2, i2, p2.trans p1⟩
    rw [emitAll, e1]
    simp only
    rw [e2]

theorem resize_size {κ : Type} (s : State κ) (w h : Int) :
    (resize s w h).pixmap.w = w ∧ (resize s w h).pixmap.h = h ∧ (resize s w h).sink = s.sink := by
  unfold resize
  split
  · exact ⟨rfl, rfl, rfl⟩
  · rename_i hn
    exact ⟨Classical.byContradiction fun h => hn (.inl h), Classical.byContradiction fun h => hn (.inr h), rfl⟩

theorem fold_same {κ : Type} (comp : Out κ → Pixmap → Pixmap) (hc : ∀ b, Paints (comp b)) (bs : List (Out κ)) : ∀ p q, Same p q →
    Same (bs.foldl (fun p b => comp b p) p) (bs.foldl (fun p b => comp b p) q) := by
  induction bs with
  | nil => intro p q h; exact h
  | cons b bs ih => intro p q h; exact ih _ _ ((hc b).local_ _ _ h)

theorem fold_size {κ : Type} (comp : Out κ → Pixmap → Pixmap) (hc : ∀ b, Paints (comp b)) (bs : List (Out κ)) : ∀ p,
    (bs.foldl (fun p b => comp b p) p).w = p.w ∧ (bs.foldl (fun p b => comp b p) p).h = p.h := by
  induction bs with
  | nil => intro p; exact ⟨rfl, rfl⟩
  | cons b bs ih => intro p; exact ⟨(ih _).1.trans ((hc b).size p).1, (ih _).2.trans ((hc b).size p).2⟩

theorem compositeAll_same {κ : Type} (comp : Out κ → Pixmap → Pixmap) (hc : ∀ b, Paints (comp b)) (w h : Int) (ls : List (Layer κ)) :
    ∀ (s : State κ) (out : List (Out κ)) (q : Pixmap), s.sink = none → s.pixmap.w = w → s.pixmap.h = h → Same s.pixmap q →
      (∀ l ∈ ls, Flat comp w h l) → ShowsAll w h ls out →
      ∃ s', compositeAll comp s ls = (.ok (), s') ∧ Same s'.pixmap (out.foldl (fun p b => comp b p) q) ∧ s'.sink = none := by
  induction ls with
  | nil =>
    intro s out q hn _ _ hq _ hs
    cases hs
    exact ⟨s, rfl, hq, hn⟩
  | cons l ls ih =>
    intro s out q hn hw hh hq hf hs
    cases hs with
    | cons _ o _ rest h1 h2 =>
      have hqw : q.w = w := hq.1.symm.trans hw
      have hqh : q.h = h := hq.2.1.symm.trans hh
      have hl := hf l (by simp)
      rw [List.foldl_append]
      have key : ∃ s1, compositeLayer comp s l = (.ok (), s1) ∧ s1.sink = none ∧ Same s1.pixmap (o.foldl (fun p b => comp b p) q) := by
        cases h1 with
        | shapes =>
          exact ⟨{ s with pixmap := o.foldl (fun p b => comp b p) s.pixmap }, by rw [compositeLayer, hn], hn, fold_same comp hc o _ _ hq⟩
        | tile b draw =>
          exact ⟨{ s with pixmap := draw s.pixmap }, by rw [compositeLayer, hn], hn, same_trans (hl s.pixmap hw hh) ((hc b).local_ _ _ hq)⟩
        | nothing boxes draw he => exact ⟨_, rfl, hn, same_trans (hl.1 he s.pixmap hw hh) hq⟩
        | picture boxes draw b hb =>
          exact ⟨_, rfl, hn, same_trans (hl.2 b hb s.pixmap hw hh) ((hc _).local_ _ _ hq)⟩
      obtain ⟨s1, e1, n1, sm⟩ := key
      have hz := fold_size comp hc o q
      obtain ⟨s2, e2, r2⟩ := ih s1 rest _ n1 (sm.1.trans (hz.1.trans hqw)) (sm.2.1.trans (hz.2.trans hqh)) sm
        (fun l hl => hf l (by simp [hl])) h2
      refine ⟨s2, ?_, r2⟩
      rw [compositeAll, e1]
      exact e2

end Verif.Bitmaps
