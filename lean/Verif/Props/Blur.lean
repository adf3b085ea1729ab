import Verif.Lemmas.Blur
/-!
# C114 Blurring

`g` gives the weights (in the code the values of `exp`), `sigma` the strength.
-/
namespace Verif.Props
open Verif.Blur Verif.Spec.Blur

/-- The reach of the kernel. -/
private theorem reach {sigma : Rat} {d : Nat} (h : 3 * sigma ≤ d) : (sigma * 3).ceil.toNat ≤ d := by
  have : (sigma * 3).ceil ≤ (d : Int) := by
    rw [Rat.ceil_le_iff, Rat.intCast_natCast]; grind
  omega

private theorem reach_pos {sigma : Rat} (h : 0 < sigma) : 1 ≤ (sigma * 3).ceil.toNat := by
  have : 0 < (sigma * 3).ceil := by
    rw [Rat.lt_ceil_iff]; grind
  omega

/-- The blurred pixel. -/
private theorem blur_px {g : Int → Rat} {sigma : Rat} {im : Image} (hs : 0 < sigma) (hw : im.w ≠ 0) (hh : im.h ≠ 0) (x y : Int) :
    (blur g sigma im).px x y =
      let pass := passes g (sigma * 3).ceil.toNat im.w im.h
      let a := pass (fun x y => (im.px x y).a) x y
      ⟨unpremul (pass (fun x y => premul (im.px x y).r (im.px x y).a) x y) a,
       unpremul (pass (fun x y => premul (im.px x y).g (im.px x y).a) x y) a,
       unpremul (pass (fun x y => premul (im.px x y).b (im.px x y).a) x y) a, a⟩ := by
  have := reach_pos hs
  unfold blur
  rw [if_neg (by grind)]
  dsimp only
  rw [if_neg (by omega)]

private theorem blur_size (g : Int → Rat) (sigma : Rat) (im : Image) : (blur g sigma im).w = im.w ∧ (blur g sigma im).h = im.h := by
  unfold blur
  by_cases h : sigma ≤ 0
  · rw [if_pos h]; exact ⟨rfl, rfl⟩
  · rw [if_neg h]; dsimp only
    by_cases h2 : (sigma * 3).ceil.toNat < 1 ∨ im.w = 0 ∨ im.h = 0
    · rw [if_pos h2]; exact ⟨rfl, rfl⟩
    · rw [if_neg h2]; exact ⟨rfl, rfl⟩

private theorem in_pos {im : Image} {x y : Int} (h : Image.In im x y) : im.w ≠ 0 ∧ im.h ≠ 0 := by
  unfold Image.In at h; omega

private theorem unpremul_le (c a : Nat) : unpremul c a ≤ 255 := by
  unfold unpremul; split <;> omega

private theorem premul_opaque (c : Nat) : premul c 255 = c := by unfold premul; omega
private theorem premul_le {c a : Nat} (hc : c ≤ 255) (ha : a ≤ 255) : premul c a ≤ 255 := by
  unfold premul
  have := Nat.mul_le_mul hc ha
  omega

/-- A sample kernel and picture: one white pixel in a row of three. -/
private def wts (x : Int) : Rat := 1 / (1 + (x : Rat) * (x : Rat))
private def dot : Image := ⟨3, 1, fun x _ => if x = 1 then ⟨255, 255, 255, 255⟩ else ⟨0, 0, 0, 0⟩⟩
private def edge : Image := ⟨2, 1, fun x _ => if x = 0 then ⟨255, 255, 255, 255⟩ else ⟨0, 0, 0, 0⟩⟩

private theorem wts_ok : Weights wts := by
  have sq : ∀ x : Int, 0 ≤ (x : Rat) * (x : Rat) := by
    intro x
    rcases Rat.le_total (a := 0) (b := (x : Rat)) with h | h
    · exact Rat.mul_nonneg h h
    · have := Rat.mul_nonneg (a := -(x : Rat)) (b := -(x : Rat)) (by grind) (by grind)
      grind
  constructor
  · intro x
    have := sq x
    unfold wts
    rw [Rat.div_def, Rat.one_mul]
    exact Rat.inv_pos.2 (by grind)
  · intro x
    unfold wts
    rw [Rat.intCast_neg]
    congr 1
    grind

/-- Without strength nothing happens; with any strength the size stays and every byte written is a byte. -/
theorem C114_size (g : Int → Rat) (sigma : Rat) (im : Image) :
    (sigma ≤ 0 → blur g sigma im = im) ∧ (blur g sigma im).w = im.w ∧ (blur g sigma im).h = im.h ∧
      (Bytes im → Bytes (blur g sigma im)) := by
  refine ⟨fun h => by unfold blur; rw [if_pos h], (blur_size g sigma im).1, (blur_size g sigma im).2, ?_⟩
  intro hb x y hin
  by_cases hs : sigma ≤ 0
  · have : blur g sigma im = im := by unfold blur; rw [if_pos hs]
    rw [this] at hin ⊢
    exact hb x y hin
  · have hin' : Image.In im x y := by
      unfold Image.In at hin ⊢; rw [(blur_size g sigma im).1, (blur_size g sigma im).2] at hin; exact hin
    have hp := in_pos hin'
    rw [blur_px (Rat.not_le.1 hs) hp.1 hp.2]
    dsimp only
    exact ⟨unpremul_le .., unpremul_le .., unpremul_le .., passes_le ..⟩

example : (blur wts (1 / 3) dot).px 0 0 = ⟨255, 255, 255, 64⟩ ∧ (blur wts (1 / 3) dot).px 1 0 = ⟨255, 255, 255, 128⟩ := by
  decide +kernel

/-- A blurred pixel depends only on the pixels at most three times the strength away. -/
theorem C114_local {g : Int → Rat} {sigma : Rat} {d : Nat} (hd : 3 * sigma ≤ d) {im im' : Image} (hw : im.w = im'.w)
    (hh : im.h = im'.h) {x y : Int} (hin : Image.In im x y)
    (h : ∀ x' y', Image.In im x' y' → Near d x y x' y' → im.px x' y' = im'.px x' y') :
    (blur g sigma im).px x y = (blur g sigma im').px x y := by
  have hp := in_pos hin
  have self : im.px x y = im'.px x y := h x y hin (by unfold Near; omega)
  by_cases hs : sigma ≤ 0
  · unfold blur; rw [if_pos hs, if_pos hs]; exact self
  · have hs := Rat.not_le.1 hs
    rw [blur_px hs hp.1 hp.2, blur_px hs (hw ▸ hp.1) (hh ▸ hp.2), ← hw, ← hh]
    have hr := reach hd
    have key : ∀ f : Px → Nat, passes g (sigma * 3).ceil.toNat im.w im.h (fun x y => f (im.px x y)) x y
        = passes g (sigma * 3).ceil.toNat im.w im.h (fun x y => f (im'.px x y)) x y := by
      intro f
      apply passes_congr hp.1 hp.2 ⟨hin.1, hin.2.1⟩ ⟨hin.2.2.1, hin.2.2.2⟩
      intro x' y' h1 h2
      rw [h x' y' h1 (by unfold Near at h2 ⊢; omega)]
    dsimp only
    rw [key (fun p => p.a), key (fun p => premul p.r p.a), key (fun p => premul p.g p.a), key (fun p => premul p.b p.a)]

example : (blur wts (1 / 3) dot).px 0 0 =
    (blur wts (1 / 3) ⟨3, 1, fun x _ => if x = 0 then ⟨0, 0, 0, 0⟩ else ⟨255, 255, 255, 255⟩⟩).px 0 0 :=
  C114_local (g := wts) (sigma := 1 / 3) (d := 1) (im := dot)
    (im' := ⟨3, 1, fun x _ => if x = 0 then ⟨0, 0, 0, 0⟩ else ⟨255, 255, 255, 255⟩⟩) (x := 0) (y := 0) (by decide +kernel) rfl rfl (by unfold Image.In dot; decide) (by
    intro x' y' hin h2
    have : x' = 0 ∨ x' = 1 ∨ (x' ≠ 0 ∧ x' ≠ 1) := by omega
    unfold Near at h2
    rcases this with rfl | rfl | h
    · rfl
    · rfl
    · unfold Image.In at hin; omega)

/-- The opacity of a blurred pixel lies between the least and the greatest opacity around it. -/
theorem C114_between {g : Int → Rat} (hg : Weights g) {sigma : Rat} {d : Nat} (hd : 3 * sigma ≤ d) {im : Image} {x y : Int}
    (hin : Image.In im x y) {lo hi : Nat} (hhi : hi ≤ 255)
    (h : ∀ x' y', Image.In im x' y' → Near d x y x' y' → lo ≤ (im.px x' y').a ∧ (im.px x' y').a ≤ hi) :
    lo ≤ ((blur g sigma im).px x y).a ∧ ((blur g sigma im).px x y).a ≤ hi := by
  have hp := in_pos hin
  have self := h x y hin (by unfold Near; omega)
  by_cases hs : sigma ≤ 0
  · unfold blur; rw [if_pos hs]; exact self
  · rw [blur_px (Rat.not_le.1 hs) hp.1 hp.2]
    dsimp only
    apply passes_between hg hp.1 hp.2 ⟨hin.1, hin.2.1⟩ ⟨hin.2.2.1, hin.2.2.2⟩ (by omega) hhi
    intro x' y' h1 h2
    have hr := reach hd
    exact h x' y' h1 (by unfold Near at h2 ⊢; omega)

/-- Where everything around is one opaque colour, the pixel keeps it; where everything around is transparent, it stays transparent. -/
theorem C114_flat {g : Int → Rat} (hg : Weights g) {sigma : Rat} {d : Nat} (hd : 3 * sigma ≤ d) {im : Image} {x y : Int}
    (hin : Image.In im x y) :
    (∀ cr cg cb : Nat, cr ≤ 255 → cg ≤ 255 → cb ≤ 255 →
      (∀ x' y', Image.In im x' y' → Near d x y x' y' → im.px x' y' = ⟨cr, cg, cb, 255⟩) →
      (blur g sigma im).px x y = ⟨cr, cg, cb, 255⟩) ∧
    (0 < sigma → (∀ x' y', Image.In im x' y' → Near d x y x' y' → (im.px x' y').a = 0) → (blur g sigma im).px x y = clear) := by
  have hp := in_pos hin
  have hr := reach hd
  constructor
  · intro cr cg cb h1 h2 h3 h
    by_cases hs : sigma ≤ 0
    · unfold blur; rw [if_pos hs]; exact h x y hin (by unfold Near; omega)
    · rw [blur_px (Rat.not_le.1 hs) hp.1 hp.2]
      have key : ∀ (f : Px → Nat) (c : Nat), f ⟨cr, cg, cb, 255⟩ = c → c ≤ 255 →
          passes g (sigma * 3).ceil.toNat im.w im.h (fun x y => f (im.px x y)) x y = c := by
        intro f c hf hc
        rw [← passes_const hg (r := (sigma * 3).ceil.toNat) (w := im.w) (h := im.h) hc x y]
        apply passes_congr hp.1 hp.2 ⟨hin.1, hin.2.1⟩ ⟨hin.2.2.1, hin.2.2.2⟩
        intro x' y' h1 h2
        rw [h x' y' h1 (by unfold Near at h2 ⊢; omega), hf]
      dsimp only
      rw [key (fun p => p.a) 255 rfl (by omega), key (fun p => premul p.r p.a) cr (premul_opaque cr) h1,
        key (fun p => premul p.g p.a) cg (premul_opaque cg) h2, key (fun p => premul p.b p.a) cb (premul_opaque cb) h3]
      unfold unpremul
      rw [if_neg (by omega), if_neg (by omega), if_neg (by omega)]
      congr 1 <;> omega
  · intro hs h
    have h0 := (C114_between hg hd hin (lo := 0) (hi := 0) (by omega) (fun x' y' h1 h2 => by rw [h x' y' h1 h2]; omega)).2
    rw [blur_px hs hp.1 hp.2] at h0 ⊢
    dsimp only at h0 ⊢
    rw [Nat.le_zero.1 h0]
    rfl

/-- Adding opacity somewhere takes it away nowhere. -/
theorem C114_more {g : Int → Rat} (hg : Weights g) {sigma : Rat} {im im' : Image} (hw : im.w = im'.w) (hh : im.h = im'.h)
    (h : ∀ x y, Image.In im x y → (im.px x y).a ≤ (im'.px x y).a) {x y : Int} (hin : Image.In im x y) :
    ((blur g sigma im).px x y).a ≤ ((blur g sigma im').px x y).a := by
  have hp := in_pos hin
  by_cases hs : sigma ≤ 0
  · unfold blur; rw [if_pos hs, if_pos hs]; exact h x y hin
  · have hs := Rat.not_le.1 hs
    rw [blur_px hs hp.1 hp.2, blur_px hs (hw ▸ hp.1) (hh ▸ hp.2), ← hw, ← hh]
    dsimp only
    exact passes_mono hg hp.1 hp.2 ⟨hin.1, hin.2.1⟩ ⟨hin.2.2.1, hin.2.2.2⟩ (fun x' y' h1 _ => h x' y' h1)

/-- A mirrored picture is blurred to the mirrored result, and one upside down to the result upside down. -/
theorem C114_mirror {g : Int → Rat} (hg : Weights g) (sigma : Rat) {im : Image} {x y : Int} (hin : Image.In im x y) :
    (blur g sigma (mirrored im)).px x y = (mirrored (blur g sigma im)).px x y ∧
      (blur g sigma (upturned im)).px x y = (upturned (blur g sigma im)).px x y := by
  have hp := in_pos hin
  have hsz := blur_size g sigma im
  by_cases hs : sigma ≤ 0
  · unfold blur; rw [if_pos hs, if_pos hs, if_pos hs]; exact ⟨rfl, rfl⟩
  · have hs := Rat.not_le.1 hs
    constructor
    · rw [blur_px hs (by exact hp.1) (by exact hp.2)]
      unfold mirrored
      dsimp only
      rw [hsz.1, blur_px hs hp.1 hp.2]
      have key := fun f : Px → Nat => passes_flip hg (r := (sigma * 3).ceil.toNat) (h := im.h) hp.1 (p := fun x y => f (im.px x y)) (x := x) (y := y)
      rw [key (fun p => p.a), key (fun p => premul p.r p.a), key (fun p => premul p.g p.a), key (fun p => premul p.b p.a)]
    · rw [blur_px hs (by exact hp.1) (by exact hp.2)]
      unfold upturned
      dsimp only
      rw [hsz.2, blur_px hs hp.1 hp.2]
      have key := fun f : Px → Nat => passes_flop hg (r := (sigma * 3).ceil.toNat) (w := im.w) hp.2 (p := fun x y => f (im.px x y)) (x := x) (y := y)
      rw [key (fun p => p.a), key (fun p => premul p.r p.a), key (fun p => premul p.g p.a), key (fun p => premul p.b p.a)]

example : (blur wts (1 / 3) (mirrored edge)).px 0 0 = (blur wts (1 / 3) edge).px 1 0 :=
  (C114_mirror wts_ok (1 / 3) (im := edge) (x := 0) (y := 0) (by unfold Image.In edge; decide)).1.trans
    (by unfold mirrored; dsimp only; rw [(blur_size ..).1]; rfl)

/-- When three times the strength is left free all round, the picture is as if blurred on a canvas of any size: the larger canvas
shows the same pixels, and nothing besides. -/
theorem C114_room {g : Int → Rat} {sigma : Rat} (hs : 0 < sigma) {d : Nat} (hd : 3 * sigma ≤ d) {im big : Image}
    (hpad : Padded d im) (hpos : im.w ≠ 0 ∧ im.h ≠ 0) {dx dy : Nat} (hpl : Placed im dx dy big) :
    (∀ x y, Image.In im x y → (blur g sigma big).px (x + dx) (y + dy) = (blur g sigma im).px x y) ∧
    (∀ x y, Image.In big x y → ¬Image.In im (x - dx) (y - dy) → (blur g sigma big).px x y = clear) := by
  have hr := reach hd
  have hf := hpl.fits
  have hbig : big.w ≠ 0 ∧ big.h ≠ 0 := by omega
  have key : ∀ f : Px → Nat, (∀ p : Px, p.a = 0 → f p = 0) → _ := fun f hz =>
    passes_placed (g := g) (r := (sigma * 3).ceil.toNat) (w := im.w) (h := im.h) (W := big.w) (H := big.h) (dx := dx) (dy := dy)
      (reach_pos hs) hpos.1 hpos.2 hf.1 hf.2 (p := fun x y => f (im.px x y)) (P := fun x y => f (big.px x y))
      (fun x y hin hne => by
        have := hpad x y hin (fun ha => hne (hz _ ha))
        omega)
      (fun x y hin => by rw [hpl.inside x y hin])
      (fun x y h1 h2 => hz _ (hpl.outside x y h1 h2))
  have ka := key (fun p => p.a) (fun _ h => h)
  have zero : ∀ c, premul c 0 = 0 := fun c => by unfold premul; omega
  have kr := key (fun p => premul p.r p.a) (fun p h => by rw [h]; exact zero _)
  have kg := key (fun p => premul p.g p.a) (fun p h => by rw [h]; exact zero _)
  have kb := key (fun p => premul p.b p.a) (fun p h => by rw [h]; exact zero _)
  constructor
  · intro x y hin
    rw [blur_px hs hbig.1 hbig.2, blur_px hs hpos.1 hpos.2]
    dsimp only
    rw [ka.1 x y hin, kr.1 x y hin, kg.1 x y hin, kb.1 x y hin]
  · intro x y hin hout
    rw [blur_px hs hbig.1 hbig.2]
    dsimp only
    rw [ka.2 x y hin hout]
    rfl

/-- A picture of two white pixels with one pixel free around them. -/
private def bar : Image := ⟨4, 3, fun x y => if y = 1 ∧ (x = 1 ∨ x = 2) then ⟨255, 255, 255, 255⟩ else ⟨0, 0, 0, 0⟩⟩
private def wide : Image := ⟨9, 5, fun x y => if y = 2 ∧ (x = 4 ∨ x = 5) then ⟨255, 255, 255, 255⟩ else ⟨0, 0, 0, 0⟩⟩

example : Padded 1 bar ∧ Placed bar 3 1 wide := by
  constructor
  · intro x y hin ha
    unfold Image.In bar at hin
    unfold bar at ha ⊢
    dsimp only at hin ha ⊢
    by_cases h : y = 1 ∧ (x = 1 ∨ x = 2)
    · omega
    · rw [if_neg h] at ha; exact absurd rfl ha
  · refine ⟨by decide, ?_, ?_⟩
    · intro x y _
      unfold bar wide
      dsimp only
      by_cases h : y = 1 ∧ (x = 1 ∨ x = 2)
      · rw [if_pos h, if_pos (by omega)]
      · rw [if_neg h, if_neg (by omega)]
    · intro x y _ hout
      unfold Image.In bar at hout
      unfold wide
      dsimp only at hout ⊢
      rw [if_neg (by omega)]

private theorem channel {g : Int → Rat} (hg : Weights g) {r w h : Nat} (hw : w ≠ 0) (hh : h ≠ 0) {al co : Int → Int → Nat} {c : Nat}
    (hc : c ≤ 255) (hal : ∀ x y : Int, (0 ≤ x ∧ x < w ∧ 0 ≤ y ∧ y < h) → al x y ≤ 255)
    (hco : ∀ x y : Int, (0 ≤ x ∧ x < w ∧ 0 ≤ y ∧ y < h) → al x y ≠ 0 → co x y = c) (x y : Int) :
    Spec.Blur.dist (unpremul (passes g r w h (fun x y => premul (co x y) (al x y)) x y) (passes g r w h al x y) * passes g r w h al x y)
      (c * passes g r w h al x y) ≤ 892 := by
  have hc' : (c : Rat) ≤ 255 := Rat.natCast_le_natCast.2 hc
  have hc0 : (0 : Rat) ≤ c := Rat.natCast_nonneg
  have pr : ∀ a : Nat, premul c a * 255 ≤ c * a + 127 ∧ c * a ≤ premul c a * 255 + 127 := by
    intro a; unfold premul; generalize c * a = k; omega
  have close := passes_close hg (r := r) hw hh (p := fun x y => premul (co x y) (al x y)) (q := al) (x := x) (y := y)
    (c := (c : Rat) / 255) (e := 127 / 255) (by grind) (by grind) (by
      intro x' y' hin
      have ha := hal x' y' hin
      by_cases hz : al x' y' = 0
      · rw [hz, show premul (co x' y') 0 = 0 by unfold premul; omega]
        refine ⟨by omega, by omega, ?_, ?_⟩ <;> grind
      · rw [hco x' y' hin hz]
        have hp := pr (al x' y')
        have h1 : ((premul c (al x' y') * 255 : Nat) : Rat) ≤ ((c * al x' y' + 127 : Nat) : Rat) := Rat.natCast_le_natCast.2 hp.1
        have h2 : ((c * al x' y' : Nat) : Rat) ≤ ((premul c (al x' y') * 255 + 127 : Nat) : Rat) := Rat.natCast_le_natCast.2 hp.2
        simp only [Rat.natCast_add, Rat.natCast_mul] at h1 h2
        refine ⟨premul_le hc ha, ha, ?_, ?_⟩ <;> grind)
  generalize hC : passes g r w h (fun x y => premul (co x y) (al x y)) x y = C at close ⊢
  generalize hA : passes g r w h al x y = A at close ⊢
  have n1 : 510 * C ≤ 2 * (c * A) + 1274 := by
    have : ((510 * C : Nat) : Rat) ≤ ((2 * (c * A) + 1274 : Nat) : Rat) := by
      simp only [Rat.natCast_add, Rat.natCast_mul]; have := close.1; grind
    exact Rat.natCast_le_natCast.1 this
  have n2 : 2 * (c * A) ≤ 510 * C + 1274 := by
    have : ((2 * (c * A) : Nat) : Rat) ≤ ((510 * C + 1274 : Nat) : Rat) := by
      simp only [Rat.natCast_add, Rat.natCast_mul]; have := close.2; grind
    exact Rat.natCast_le_natCast.1 this
  have hA255 : A ≤ 255 := by rw [← hA]; exact passes_le ..
  unfold unpremul Spec.Blur.dist
  by_cases ha : A = 0
  · rw [if_pos ha, ha]; omega
  · rw [if_neg ha]
    have hdm := Nat.div_add_mod (C * 255) A
    have hml := Nat.mod_lt (C * 255) (Nat.pos_of_ne_zero ha)
    have hcA : c * A ≤ 255 * A := Nat.mul_le_mul_right _ hc
    rw [Nat.mul_comm A] at hdm
    by_cases hq : C * 255 / A ≤ 255
    · rw [Nat.min_eq_left hq]
      generalize C * 255 / A * A = k at hdm ⊢
      generalize c * A = m at *
      omega
    · rw [Nat.min_eq_right (by omega)]
      have : 255 * A ≤ C * 255 / A * A := Nat.mul_le_mul_right _ (by omega)
      generalize C * 255 / A * A = k at hdm this
      generalize c * A = m at *
      omega

/-- Where all that is not transparent has one colour, blurring keeps the colour: what each blurred pixel contributes differs from
that colour at the opacity of the pixel by at most three and a half levels (892 / 255), by rounding. -/
theorem C114_colour {g : Int → Rat} (hg : Weights g) (sigma : Rat) {im : Image} (hb : Bytes im) {cr cg cb : Nat}
    (hc : cr ≤ 255 ∧ cg ≤ 255 ∧ cb ≤ 255)
    (h : ∀ x y, Image.In im x y → (im.px x y).a ≠ 0 → (im.px x y).r = cr ∧ (im.px x y).g = cg ∧ (im.px x y).b = cb)
    {x y : Int} (hin : Image.In im x y) :
    Spec.Blur.dist (((blur g sigma im).px x y).r * ((blur g sigma im).px x y).a) (cr * ((blur g sigma im).px x y).a) ≤ 892 ∧
    Spec.Blur.dist (((blur g sigma im).px x y).g * ((blur g sigma im).px x y).a) (cg * ((blur g sigma im).px x y).a) ≤ 892 ∧
    Spec.Blur.dist (((blur g sigma im).px x y).b * ((blur g sigma im).px x y).a) (cb * ((blur g sigma im).px x y).a) ≤ 892 := by
  have hp := in_pos hin
  by_cases hs : sigma ≤ 0
  · have : blur g sigma im = im := by unfold blur; rw [if_pos hs]
    rw [this]
    by_cases ha : (im.px x y).a = 0
    · rw [ha]; unfold Spec.Blur.dist; omega
    · obtain ⟨h1, h2, h3⟩ := h x y hin ha
      rw [h1, h2, h3]; unfold Spec.Blur.dist; omega
  · rw [blur_px (Rat.not_le.1 hs) hp.1 hp.2]
    dsimp only
    refine ⟨?_, ?_, ?_⟩
    · exact channel hg hp.1 hp.2 hc.1 (al := fun x y => (im.px x y).a) (co := fun x y => (im.px x y).r)
        (fun x y hi => (hb x y hi).2.2.2) (fun x y hi ha => (h x y hi ha).1) x y
    · exact channel hg hp.1 hp.2 hc.2.1 (al := fun x y => (im.px x y).a) (co := fun x y => (im.px x y).g)
        (fun x y hi => (hb x y hi).2.2.2) (fun x y hi ha => (h x y hi ha).2.1) x y
    · exact channel hg hp.1 hp.2 hc.2.2 (al := fun x y => (im.px x y).a) (co := fun x y => (im.px x y).b)
        (fun x y hi => (hb x y hi).2.2.2) (fun x y hi ha => (h x y hi ha).2.2) x y

example : (blur wts (1 / 3) ⟨2, 1, fun x _ => if x = 0 then ⟨200, 100, 0, 255⟩ else ⟨0, 0, 0, 0⟩⟩).px 1 0 = ⟨199, 99, 0, 64⟩ := by
  decide +kernel

/-- The pictures drawn and composited hold colours multiplied by alpha, but the blurred one does not: beside a white shape the
colour exceeds the alpha, so that the glow is painted as bright as the shape itself over anything that lies below. -/
theorem C114_premultiplied_violated :
    (∀ x y, Image.In edge x y → Premultiplied (edge.px x y)) ∧ Image.In edge 1 0 ∧
      ¬Premultiplied ((blur wts (1 / 3) edge).px 1 0) := by
  refine ⟨?_, by unfold Image.In edge; decide, ?_⟩
  · intro x y _
    unfold edge
    dsimp only
    split <;> exact ⟨by decide, by decide, by decide⟩
  · rw [show (blur wts (1 / 3) edge).px 1 0 = ⟨255, 255, 255, 64⟩ by decide +kernel]
    unfold Premultiplied; decide

/-! ## The room left around what is blurred -/

private theorem ceil_step {q : Rat} {k : Int} (h : (k : Rat) < q) : k < q.ceil := by
  rw [Rat.lt_ceil_iff]; exact h

private theorem padded_axis {d : Nat} {width : Rat} {x : Int} (h1 : (d : Rat) < (x : Rat) + 1) (h2 : (x : Rat) < d + width) :
    (d : Int) ≤ x ∧ x + d < (width + (d : Rat) * 2).ceil := by
  constructor
  · have : ((d : Int) : Rat) < ((x + 1 : Int) : Rat) := by rw [Rat.intCast_natCast, Rat.intCast_add]; exact h1
    have := Rat.intCast_lt_intCast.1 this
    omega
  · apply ceil_step
    rw [Rat.intCast_add, Rat.intCast_natCast]; grind

private theorem size_nat {q : Rat} (h : 0 < q) : ∃ d : Nat, q.ceil = d ∧ q ≤ (d : Rat) := by
  have h1 : 0 < q.ceil := by rw [Rat.lt_ceil_iff]; exact h
  obtain ⟨d, hd⟩ := Int.eq_ofNat_of_zero_le (Int.le_of_lt h1)
  refine ⟨d, hd, ?_⟩
  have := Rat.le_ceil (x := q)
  rwa [hd, Rat.intCast_natCast] at this

/-- The tile made for blurred text has room for the blur: when the glyphs drawn into it stay within the width and height of the
text, the tile holds all of the blurred picture.  `s` is the factor from radius to strength, at most one (in the code 0.849...).
Missing: outlines and shadows, see below. -/
theorem C114_text_room_partial {g : Int → Rat} {width height ascent radius s : Rat} (hr : 0 < radius) (hs : 0 < s) (hs1 : s ≤ 1)
    {im big : Image} (hw : im.w = (textTile width height ascent radius).w) (hh : im.h = (textTile width height ascent radius).h)
    (hpos : im.w ≠ 0 ∧ im.h ≠ 0)
    (hink : ∀ x y, Image.In im x y → (im.px x y).a ≠ 0 →
      let t := textTile width height ascent radius
      t.ox < (x : Rat) + 1 ∧ (x : Rat) < t.ox + width ∧ t.oy - ascent < (y : Rat) + 1 ∧ (y : Rat) < t.oy - ascent + height)
    {dx dy : Nat} (hpl : Placed im dx dy big) :
    (∀ x y, Image.In im x y → (blur g (radius * s) big).px (x + dx) (y + dy) = (blur g (radius * s) im).px x y) ∧
    (∀ x y, Image.In big x y → ¬Image.In im (x - dx) (y - dy) → (blur g (radius * s) big).px x y = clear) := by
  obtain ⟨d, hd, hd'⟩ := size_nat (q := radius * 3) (by grind)
  have hle : radius * s ≤ radius * 1 := Rat.mul_le_mul_of_nonneg_left hs1 (Rat.le_of_lt hr)
  refine C114_room (d := d) (Rat.mul_pos hr hs) (by grind) ?_ hpos hpl
  intro x y hin ha
  have hi := hink x y hin ha
  unfold textTile at hi hw hh
  dsimp only at hi hw hh
  rw [hd, Rat.intCast_natCast] at hi hw hh
  have h1 := padded_axis hi.1 hi.2.1
  have h2 := padded_axis (d := d) (width := height) (x := y) (by grind) (by grind)
  unfold Image.In at hin
  omega

private theorem bar_ink {x y : Int} (ha : (bar.px x y).a ≠ 0) : y = 1 ∧ (x = 1 ∨ x = 2) := by
  apply Decidable.byContradiction
  intro h
  unfold bar at ha
  dsimp only at ha
  rw [if_neg h] at ha
  exact ha rfl

example : bar.w = (textTile 2 1 1 (1 / 3)).w ∧ bar.h = (textTile 2 1 1 (1 / 3)).h ∧ ∀ x y, Image.In bar x y → (bar.px x y).a ≠ 0 →
    let t := textTile 2 1 1 (1 / 3)
    t.ox < (x : Rat) + 1 ∧ (x : Rat) < t.ox + 2 ∧ t.oy - 1 < (y : Rat) + 1 ∧ (y : Rat) < t.oy - 1 + 1 := by
  refine ⟨by decide +kernel, by decide +kernel, ?_⟩
  intro x y _ ha
  obtain ⟨rfl, rfl | rfl⟩ := bar_ink ha <;> decide +kernel

/-- Likewise the tile made for a blurred drawing, when the shape stays within its bounds.  Missing: strokes, which reach beyond the
bounds by half their width. -/
theorem C114_drawing_room_partial {g : Int → Rat} {b : Box} {radius s : Rat} (hr : 0 < radius) (hs : 0 < s) (hs1 : s ≤ 1)
    {im big : Image} (hw : im.w = (drawingTile b radius).w) (hh : im.h = (drawingTile b radius).h)
    (hink : ∀ x y, Image.In im x y → (im.px x y).a ≠ 0 →
      let t := drawingTile b radius
      t.ox + b.left < (x : Rat) + 1 ∧ (x : Rat) < t.ox + b.right ∧ t.oy + b.top < (y : Rat) + 1 ∧ (y : Rat) < t.oy + b.bottom)
    {dx dy : Nat} (hpl : Placed im dx dy big) :
    (∀ x y, Image.In im x y → (blur g (radius * s) big).px (x + dx) (y + dy) = (blur g (radius * s) im).px x y) ∧
    (∀ x y, Image.In big x y → ¬Image.In im (x - dx) (y - dy) → (blur g (radius * s) big).px x y = clear) := by
  obtain ⟨d, hd, hd'⟩ := size_nat (q := radius * 3) (by grind)
  have hle : radius * s ≤ radius * 1 := Rat.mul_le_mul_of_nonneg_left hs1 (Rat.le_of_lt hr)
  have hdpos : 1 ≤ d := by
    have := reach_pos hr
    omega
  have hpad : pad radius = (d : Rat) := by
    have : (1 : Rat) ≤ d := Rat.natCast_le_natCast.2 hdpos
    unfold pad
    rw [hd, Rat.intCast_natCast]; grind
  have hpos : im.w ≠ 0 ∧ im.h ≠ 0 := by rw [hw, hh]; unfold drawingTile; dsimp only; omega
  refine C114_room (d := d) (Rat.mul_pos hr hs) (by grind) ?_ hpos hpl
  intro x y hin ha
  have hi := hink x y hin ha
  unfold drawingTile at hi hw hh
  dsimp only at hi hw hh
  rw [hpad] at hi hw hh
  have h1 := padded_axis (d := d) (width := b.right - b.left) (x := x) (by grind) (by grind)
  have h2 := padded_axis (d := d) (width := b.bottom - b.top) (x := y) (by grind) (by grind)
  unfold Image.In at hin
  omega

example : bar.w = (drawingTile ⟨10, 20, 12, 21⟩ (1 / 3)).w ∧ bar.h = (drawingTile ⟨10, 20, 12, 21⟩ (1 / 3)).h ∧
    ∀ x y, Image.In bar x y → (bar.px x y).a ≠ 0 →
      let t := drawingTile ⟨10, 20, 12, 21⟩ (1 / 3)
      t.ox + 10 < (x : Rat) + 1 ∧ (x : Rat) < t.ox + 12 ∧ t.oy + 20 < (y : Rat) + 1 ∧ (y : Rat) < t.oy + 21 := by
  refine ⟨by decide +kernel, by decide +kernel, ?_⟩
  intro x y _ ha
  obtain ⟨rfl, rfl | rfl⟩ := bar_ink ha <;> decide +kernel

/-- With a heavy outline the tile for text is too small: no room is made for the outline, which begins left of the tile. -/
theorem C114_text_room_violated :
    ∃ width height ascent radius outline : Rat, 0 < radius ∧ (textTile width height ascent radius).ox - outline < 0 ∧
      ((textTile width height ascent radius).w : Rat) < (textTile width height ascent radius).ox + width + outline :=
  ⟨100, 40, 30, 1, 12, by decide +kernel⟩

/-- The box kept for cropping a blurred drawing contains the whole tile that is composited. -/
theorem C114_hint {b : Box} (hb : b.left ≤ b.right ∧ b.top ≤ b.bottom) {stroke : Option Rat} (hst : ∀ w, stroke = some w → 0 ≤ w)
    {radius : Rat} (hr : 0 < radius) :
    Covers (drawingHint b stroke radius) (drawingCorner b radius).1 (drawingCorner b radius).2
      ((drawingCorner b radius).1 + (drawingTile b radius).w) ((drawingCorner b radius).2 + (drawingTile b radius).h) := by
  have hw : 0 ≤ stroke.getD 0 := by
    cases stroke with
    | none => exact Rat.le_refl
    | some w => exact hst w rfl
  have hp1 : 1 ≤ pad radius := by unfold pad; grind
  have hp2 : pad radius ≤ radius * 3 + 1 := by
    have := Rat.ceil_lt (x := radius * 3)
    unfold pad; grind
  have size : ∀ q : Rat, 2 ≤ q → ((max q.ceil.toNat 1 : Nat) : Rat) ≤ q + 1 := by
    intro q hq
    obtain ⟨d, hd, hd'⟩ := size_nat (q := q) (by grind)
    have := Rat.ceil_lt (x := q)
    rw [hd, Rat.intCast_natCast] at this
    rw [hd]
    have h1 : (1 : Rat) < d := by grind
    have h2 : 1 < d := Rat.natCast_lt_natCast.1 h1
    rw [show max (Int.toNat (d : Int)) 1 = d by omega]
    exact Rat.le_of_lt this
  unfold Covers drawingHint drawingCorner drawingTile
  dsimp only
  have s1 := size (b.right - b.left + pad radius * 2) (by grind)
  have s2 := size (b.bottom - b.top + pad radius * 2) (by grind)
  refine ⟨?_, ?_, ?_, ?_⟩
  · have := Rat.floor_le (b.left - (2 + stroke.getD 0 + radius * 3)); grind
  · have := Rat.floor_le (b.top - (2 + stroke.getD 0 + radius * 3)); grind
  · have := Rat.le_ceil (x := b.right + (2 + stroke.getD 0 + radius * 3)); grind
  · have := Rat.le_ceil (x := b.bottom + (2 + stroke.getD 0 + radius * 3)); grind

/-- The box kept for cropping blurred text contains the whole tile, when the outlines fill the width and height of the text and are
not turned.  Missing: rotated text. -/
theorem C114_text_hint_partial {width height ascent radius outline shadow x baseline : Rat} (hr : 0 < radius) (hw : 0 ≤ width)
    (hh : 0 ≤ height) (ho : 0 ≤ outline) (hs : 0 ≤ shadow) :
    Covers (textHint ⟨x, baseline - ascent, x + width, baseline - ascent + height⟩ outline shadow radius)
      (textCorner ascent radius x baseline).1 (textCorner ascent radius x baseline).2
      ((textCorner ascent radius x baseline).1 + (textTile width height ascent radius).w)
      ((textCorner ascent radius x baseline).2 + (textTile width height ascent radius).h) := by
  obtain ⟨d, hd, hd'⟩ := size_nat (q := radius * 3) (by grind)
  have hlt := Rat.ceil_lt (x := radius * 3)
  rw [hd, Rat.intCast_natCast] at hlt
  have size : ∀ q : Rat, 0 < q → ((q.ceil.toNat : Nat) : Rat) ≤ q + 1 := by
    intro q hq
    obtain ⟨e, he, _⟩ := size_nat hq
    have := Rat.ceil_lt (x := q)
    rw [he, Rat.intCast_natCast] at this
    rw [he]
    exact Rat.le_of_lt this
  unfold Covers textHint textCorner textTile
  dsimp only
  rw [hd, Rat.intCast_natCast]
  have s1 := size (width + (d : Rat) * 2) (by grind)
  have s2 := size (height + (d : Rat) * 2) (by grind)
  refine ⟨?_, ?_, ?_, ?_⟩
  · have := Rat.floor_le (x - (4 + outline * 2 + shadow + radius * 4)); grind
  · have := Rat.floor_le (baseline - ascent - (4 + outline * 2 + shadow + radius * 4)); grind
  · have := Rat.le_ceil (x := x + width + (4 + outline * 2 + shadow + radius * 4)); grind
  · have := Rat.le_ceil (x := baseline - ascent + height + (4 + outline * 2 + shadow + radius * 4)); grind

/-- Blurred text is drawn upright whatever its rotation, but the box kept for it is that of the rotated outlines: with a quarter turn
of a line 100 wide and 10 high about its origin (500, 300), the right end of what is drawn lies outside of the box. -/
theorem C114_text_hint_violated :
    ¬Covers (textHint ⟨500 - 2, 300, 500 + 8, 400⟩ 0 0 1) (textCorner 8 1 500 300).1 (textCorner 8 1 500 300).2
      ((textCorner 8 1 500 300).1 + (textTile 100 10 8 1).w) ((textCorner 8 1 500 300).2 + (textTile 100 10 8 1).h) := by
  intro h
  exact absurd h.2.2.1 (by decide +kernel)

end Verif.Props
