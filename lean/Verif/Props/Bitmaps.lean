import Verif.Lemmas.Bitmaps
/-!
# C132 — a frame as a list of bitmaps
-/
namespace Verif.Props.Bitmaps
open Verif Verif.Dirty Verif.Spec.Drt Verif.Spec.Btm Verif.Bitmaps

/-- **C132.** The list has for each layer, in order, its shapes, its cached bitmap, or one bitmap that shows exactly what the layer paints
on an empty frame (none if it paints nothing), whatever was rendered before and whatever the size of the frame then was.  The frame that
was painted before is not touched, and afterwards the backend paints again.  `_partial`: for layers that paint only inside the boxes they
note, see `C132_beyond_violated` and `C132_tip_violated`. -/
theorem C132_list_partial {κ : Type} (comp : Out κ → Pixmap → Pixmap) (s : State κ) (w h : Int) (ls : List (Layer κ))
    (hb : s.scratch.w = s.pixmap.w ∧ s.scratch.h = s.pixmap.h) (hs : ∀ l ∈ ls, Sound w h l) :
    ∃ out s', renderToBitmaps comp s w h ls = (.ok out, s') ∧ ShowsAll w h ls out ∧ s'.sink = none ∧
      (s.pixmap.w = w → s.pixmap.h = h → s'.pixmap = s.pixmap) ∧ s'.scratch.w = s'.pixmap.w ∧ s'.scratch.h = s'.pixmap.h := by
  have hr := resize_size s w h
  have hd : (resize s w h).scratch.w = w ∧ (resize s w h).scratch.h = h := by
    unfold resize
    split
    · exact ⟨rfl, rfl⟩
    · rename_i hn
      have h1 : s.pixmap.w = w := Classical.byContradiction fun h => hn (.inl h)
      have h2 : s.pixmap.h = h := Classical.byContradiction fun h => hn (.inr h)
      exact ⟨hb.1.trans h1, hb.2.trans h2⟩
  obtain ⟨out, s', e, h1, h2, h3⟩ := emitAll_sound comp w h ls
    { resize s w h with scratch := blank (resize s w h).scratch.w (resize s w h).scratch.h } hs
    ⟨hr.1, hr.2.1, hd.1, hd.2, fun _ _ _ _ _ _ => rfl⟩
  refine ⟨out, { s' with sink := none }, ?_, h1, rfl, ?_, h2.sw.trans h2.pw.symm, h2.sh.trans h2.ph.symm⟩
  · rw [renderToBitmaps, e]
  · intro k1 k2
    show s'.pixmap = s.pixmap
    rw [h3]
    show (resize s w h).pixmap = s.pixmap
    rw [resize, if_neg (by simp [k1, k2])]

/-- **C132.** Compositing the bitmaps of the list, one over the other, gives the frame that is rendered at once.  `_partial`: for layers
whose painting is the same as compositing what they paint on an empty frame (exact compositing is associative, with bytes it is only
nearly so), and with no failed call before, see `C132_error_violated`. -/
theorem C132_same_partial {κ : Type} (comp : Out κ → Pixmap → Pixmap) (hc : ∀ b, Paints (comp b)) (s t : State κ) (w h : Int)
    (ls : List (Layer κ)) (hb : s.scratch.w = s.pixmap.w ∧ s.scratch.h = s.pixmap.h) (ht : t.sink = none)
    (hs : ∀ l ∈ ls, Sound w h l) (hf : ∀ l ∈ ls, Flat comp w h l) :
    ∃ out p, (renderToBitmaps comp s w h ls).1 = .ok out ∧ (compositeLayers comp t w h ls).1 = .ok p ∧
      Same p (out.foldl (fun p b => comp b p) (blank w h)) := by
  obtain ⟨out, s', e, h1, _⟩ := C132_list_partial comp s w h ls hb hs
  have hr := resize_size t w h
  have := compositeAll_same comp hc w h ls
    { resize t w h with pixmap := blank (resize t w h).pixmap.w (resize t w h).pixmap.h } out (blank w h) (hr.2.2.trans ht) hr.1 hr.2.1
    ⟨hr.1, hr.2.1, fun _ _ _ _ _ _ => rfl⟩ hf h1
  obtain ⟨t', e', h2, _⟩ := this
  refine ⟨out, t'.pixmap, by rw [e], ?_, h2⟩
  rw [compositeLayers, e']

/-- A frame of the size with nothing done before. -/
def fresh (w h : Int) : State Nat := ⟨blank w h, blank w h, none, none⟩

/-- Paints one pixel. -/
def dot (x y : Int) (c : Nat) (p : Pixmap) : Pixmap := { p with px := fun i j => if i = x ∧ j = y then ⟨c, 255⟩ else p.px i j }

/-- A bitmap is put over the frame where it is not transparent; shape `n` is the opaque pixel at `(n, 0)`. -/
def over : Out Nat → Pixmap → Pixmap
  | .shape n, p => dot n 0 1 p
  | .pixels b, p =>
    { p with px := fun x y =>
        if b.x ≤ x ∧ x < b.x + b.w ∧ b.y ≤ y ∧ y < b.y + b.h ∧ (b.px (x - b.x) (y - b.y)).a ≠ 0 then b.px (x - b.x) (y - b.y) else p.px x y }

theorem dot_paints (x y : Int) (c : Nat) : Paints (dot x y c) := by
  refine ⟨fun p => ⟨rfl, rfl⟩, fun p q h => ⟨h.1, h.2.1, fun i j h1 h2 h3 h4 => ?_⟩, fun p h i j => ?_⟩
  · simp only [dot]
    split
    · rfl
    · exact h.2.2 i j h1 h2 h3 h4
  · simp only [dot]
    split
    · intro e; exact absurd e (by simp)
    · exact h i j

/-- The hypotheses hold for a text in two shapes and a drawing of one pixel in its box. -/
example : (∀ l ∈ [Layer.shapes [.shape 1, .shape 4], Layer.drawn [⟨0, 0, 3, 1⟩] (dot 2 1 7)], Sound (κ := Nat) 5 2 l) ∧
    ∀ l ∈ [Layer.shapes [.shape 1, .shape 4], Layer.drawn [⟨0, 0, 3, 1⟩] (dot 2 1 7)], Flat over 5 2 l := by
  have vis : ∀ x y, Visible (dot 2 1 7 (blank 5 2)) x y → x = 2 ∧ y = 1 := by
    intro x y ⟨_, _, _, _, h⟩
    simp only [dot, blank] at h
    split at h
    · assumption
    · exact absurd rfl h
  refine ⟨fun l hl => ?_, fun l hl => ?_⟩
  · rcases List.mem_cons.1 hl with rfl | hl
    · trivial
    · rw [List.mem_singleton] at hl
      subst hl
      refine ⟨dot_paints _ _ _, fun _ x y h => ⟨⟨0, 0, 3, 1⟩, List.mem_singleton.2 rfl, ?_⟩⟩
      have := vis x y h
      simp only
      omega
  · rcases List.mem_cons.1 hl with rfl | hl
    · trivial
    · rw [List.mem_singleton] at hl
      subst hl
      refine ⟨fun he => ?_, fun b hb p hw hh => ⟨rfl, rfl, fun x y h1 h2 h3 h4 => ?_⟩⟩
      · have := he 2 1 (by decide) (by decide) (by decide) (by decide)
        simp [dot] at this
      · simp only [dot] at h2 h4
        have := hb.2.2.2.2 x y h1 (by simp only [dot, blank]; omega) h3 (by simp only [dot, blank]; omega)
        simp only [dot, blank, over] at this ⊢
        by_cases hin : b.x ≤ x ∧ x < b.x + b.w ∧ b.y ≤ y ∧ y < b.y + b.h
        · rw [if_pos hin] at this
          rw [this]
          by_cases hd : x = 2 ∧ y = 1
          · simp only [if_pos hd]
            rw [if_pos ⟨hin.1, hin.2.1, hin.2.2.1, hin.2.2.2, by decide⟩]
          · simp [hd]
        · rw [if_neg hin] at this
          by_cases hd : x = 2 ∧ y = 1
          · rw [if_pos hd] at this; simp at this
          · rw [if_neg hd, if_neg (by omega)]

/-- **C132.** Where the code departs from it: when a list cannot be made because a layer fails, then the next frame that is rendered at
once on that thread, by whatever backend, has none of the text that is painted from shapes, and no error is reported. -/
theorem C132_error_violated {κ : Type} (comp : Out κ → Pixmap → Pixmap) (s t : State κ) (w h : Int) (bs : List (Out κ)) :
    (renderToBitmaps comp s w h [.fails]).1 = .err ∧
      (compositeLayers comp { t with sink := (renderToBitmaps comp s w h [.fails]).2.sink } w h [.shapes bs]).1 = .ok (blank w h) := by
  have e : renderToBitmaps comp s w h [.fails] = (.err, { resize s w h with
      scratch := blank (resize s w h).scratch.w (resize s w h).scratch.h, sink := some [], box := none }) := rfl
  refine ⟨by rw [e], ?_⟩
  rw [e]
  have hr := resize_size (⟨t.pixmap, t.scratch, some [], t.box⟩ : State κ) w h
  simp only [compositeLayers, compositeAll, compositeLayer, hr.1, hr.2.1, hr.2.2]

/-- The place of a bitmap and the opacities of its first row. -/
def row : Out Nat → Option (Int × List Nat)
  | .pixels b => some (b.x, (List.range b.w.toNat).map fun i : Nat => (b.px (i : Int) 0).a)
  | .shape _ => none

/-- What comes out. -/
def rows : Outcome (List (Out Nat)) → List (Option (Int × List Nat))
  | .ok l => l.map row
  | _ => []

/-- **C132.** Where the code departs from it: what a layer paints outside the boxes it notes is lost and then shown by a later layer's
bitmap.  Here the first layer paints pixel 1 and pixel 5 and notes pixels 0 to 2, and the second paints pixel 4 and notes all. -/
theorem C132_beyond_violated :
    rows (renderToBitmaps over (fresh 8 1) 8 1
      [.drawn [⟨0, 0, 2, 0⟩] fun p => dot 1 0 1 (dot 5 0 1 p), .drawn [⟨0, 0, 8, 0⟩] (dot 4 0 1)]).1 =
      [some (1, [255]), some (4, [255, 255])] := by decide

/-- **C132.** Such layers exist: the border of a drawing is joined to a point at corners (up to four times its half width), and at the sharp
corner of a drawing that ends at 0 a border of 6 paints a fifth of pixel column 9, while the box is read up to column 8. -/
theorem C132_tip_violated :
    (drawingBox (-48) (-14) 0 14 6 0).x1 = 8 ∧ ((25 : Rat) / 7 ≤ 4) ∧ ((7 : Rat) / 25) * (7 / 25) + (24 / 25) * (24 / 25) = 1 ∧
      ∀ x y : Rat, 9 ≤ x → x ≤ 10 → -(1 / 5) ≤ y → y ≤ 1 / 5 → InTip (7 / 25) (24 / 25) 6 x y := by
  refine ⟨by decide +kernel, by decide +kernel, by decide +kernel, fun x y h1 h2 h3 h4 => ⟨?_, ?_, ?_⟩⟩ <;> grind

/-- **C132.** Without sharp corners the box is wide enough: the border reaches half its width beyond the path, and the box the whole width
and two pixels more. -/
theorem C132_box (left top right bottom width blur x y : Rat) (hw : 0 ≤ width) (hb : 0 ≤ blur)
    (hx : left - width / 2 - 3 * blur ≤ x ∧ x ≤ right + width / 2 + 3 * blur)
    (hy : top - width / 2 - 3 * blur ≤ y ∧ y ≤ bottom + width / 2 + 3 * blur) :
    let c := drawingBox left top right bottom width blur
    c.x0 ≤ x.floor ∧ x.floor ≤ c.x1 ∧ c.y0 ≤ y.floor ∧ y.floor ≤ c.y1 := by
  have fl : ∀ a b : Rat, a ≤ b → a.floor ≤ b.floor := fun a b h => Rat.le_floor_iff.2 (Rat.le_trans (Rat.floor_le a) h)
  have fc : ∀ a b : Rat, a ≤ b → a.floor ≤ b.ceil := fun a b h => by
    have h1 := Rat.floor_le a
    have h2 := Rat.le_ceil (x := b)
    have : ((a.floor : Int) : Rat) ≤ ((b.ceil : Int) : Rat) := Rat.le_trans h1 (Rat.le_trans h h2)
    exact Rat.intCast_le_intCast.1 this
  refine ⟨fl _ _ ?_, fc _ _ ?_, fl _ _ ?_, fc _ _ ?_⟩ <;> grind

example : drawingBox 10 10 20 20 4 0 = ⟨4, 4, 26, 26⟩ := by decide +kernel

end Verif.Props.Bitmaps
