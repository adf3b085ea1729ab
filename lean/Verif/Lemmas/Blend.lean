import Verif.Model.Blend
import Verif.Spec.Blend
/-! # Compositing -/
namespace Verif.Blend
open Verif
open Verif.Spec.Blend

/-! ## Arithmetic -/

theorem mul_small {a b : Nat} (ha : a ≤ 255) (hb : b ≤ 255) : a * b ≤ 65025 := Nat.mul_le_mul ha hb

theorem mul255_eq {a b : Nat} (ha : a ≤ 255) (hb : b ≤ 255) : mul255 a b = .ok (scale a b) := by
  have h := mul_small ha hb
  unfold mul255 u16 scale
  generalize a * b = m at h
  rw [if_pos (by omega)]
  simp only [bind]
  rw [if_pos (by omega)]
  simp only [bind]
  rw [if_pos (by omega)]
  simp only [bind]
  congr 1
  omega

theorem mulLane_eq {a b : Nat} (ha : a ≤ 255) (hb : b ≤ 255) : mulLane a b = scale a b := by
  have h := mul_small ha hb
  unfold mulLane scale
  generalize a * b = m at h
  simp only
  rw [Nat.mod_eq_of_lt (a := m) (by omega), Nat.mod_eq_of_lt (a := m + 128) (by omega), Nat.mod_eq_of_lt (by omega)]
  omega

theorem scale_le {a b : Nat} (ha : a ≤ 255) : scale a b ≤ b := by
  have h : a * b ≤ 255 * b := Nat.mul_le_mul_right b ha
  unfold scale
  generalize a * b = m at h
  omega

theorem scale_le' {a b : Nat} (hb : b ≤ 255) : scale a b ≤ a := by
  have h : a * b ≤ a * 255 := Nat.mul_le_mul_left a hb
  unfold scale
  generalize a * b = m at h
  omega

theorem scale_mono {a a' : Nat} (b : Nat) (h : a ≤ a') : scale a b ≤ scale a' b := by
  have h : a * b ≤ a' * b := Nat.mul_le_mul_right b h
  unfold scale
  omega

theorem scale_255 (a : Nat) : scale a 255 = a := by unfold scale; omega
theorem scale_zero (a : Nat) : scale a 0 = 0 := by unfold scale; omega
theorem zero_scale (a : Nat) : scale 0 a = 0 := by unfold scale; omega

/-! ## One pixel -/

theorem flat_cons (d : Px) (l : List Px) : flat (d :: l) = d.r :: d.g :: d.b :: d.a :: flat l := rfl

theorem flat_append (a b : List Px) : flat (a ++ b) = flat a ++ flat b := by unfold flat; rw [List.flatMap_append]

theorem flat_length : ∀ l : List Px, (flat l).length = 4 * l.length
  | [] => rfl
  | d :: l => by rw [flat_cons]; simp only [List.length_cons]; rw [flat_length l]; omega

theorem channel_eq {X Y : List Nat} {d p c i : Nat} (hp : p ≤ 255) (hc : c ≤ 255) (hd : d ≤ 255) (hi : i ≤ 255)
    (hs : scale p c + scale d i ≤ 255) {n : Nat} (hn : n = X.length) :
    channel (X ++ d :: Y) n p c i = .ok (X ++ (scale p c + scale d i) :: Y) := by
  subst hn
  unfold channel get
  rw [mul255_eq hp hc]
  simp only [bind]
  rw [List.getElem?_append_right (Nat.le_refl _), Nat.sub_self, List.getElem?_cons_zero]
  simp only
  rw [mul255_eq hd hi]
  simp only
  unfold u16
  rw [if_pos (by omega)]
  simp only
  rw [List.set_append_right _ _ (Nat.le_refl _), Nat.sub_self, List.set_cons_zero, Nat.mod_eq_of_lt (by omega)]

theorem sums {p : Px} {c : Nat} (hp : p.Premultiplied) (hc : c ≤ 255) (q d : Nat) (hq : q ≤ p.a) (hd : d ≤ 255) :
    scale q c + scale d (255 - scale p.a c) ≤ 255 := by
  have h1 := scale_mono c hq
  have h2 := scale_le (b := 255 - scale p.a c) hd
  have h3 := scale_le (b := c) hp.2.2.2
  omega

theorem pixel_eq {p d : Px} {c : Nat} (hp : p.Premultiplied) (hd : d.Bytes) (hc : c ≤ 255) {A C : List Px} {n : Nat}
    (hn : n = 4 * A.length) :
    blendPixel (flat (A ++ d :: C)) n c p.r p.g p.b p.a = .ok (flat (A ++ over p c d :: C)) := by
  obtain ⟨p1, p2, p3, p4⟩ := id hp
  obtain ⟨d1, d2, d3, d4⟩ := hd
  rw [flat_append, flat_append, flat_cons, flat_cons]
  unfold blendPixel
  by_cases h0 : c = 0
  · subst h0
    rw [if_pos rfl]
    unfold over
    simp only [scale_zero, Nat.zero_add, Nat.sub_zero, scale_255]
  · rw [if_neg h0, mul255_eq p4 hc]
    simp only [bind]
    have hs := scale_le (b := c) p4
    have hi : 255 - scale p.a c ≤ 255 := by omega
    unfold inv255
    rw [if_pos (by omega)]
    simp only
    rw [channel_eq (X := flat A) (by omega) hc d1 hi (sums hp hc _ _ p1 d1) (by rw [flat_length, hn])]
    simp only
    rw [List.append_cons, channel_eq (X := flat A ++ [_]) (by omega) hc d2 hi (sums hp hc _ _ p2 d2)
      (by rw [List.length_append, flat_length, hn]; rfl)]
    simp only
    rw [List.append_cons, channel_eq (X := flat A ++ [_] ++ [_]) (by omega) hc d3 hi (sums hp hc _ _ p3 d3)
      (by rw [List.length_append, List.length_append, flat_length, hn]; rfl)]
    simp only
    rw [List.append_cons, channel_eq (X := flat A ++ [_] ++ [_] ++ [_]) (by omega) hc d4 hi (sums hp hc _ _ (Nat.le_refl _) d4)
      (by rw [List.length_append, List.length_append, List.length_append, flat_length, hn]; rfl)]
    unfold over
    simp

theorem row_eq {p : Px} (hp : p.Premultiplied) : ∀ {B : List Px} {cov : List Nat} {A C : List Px} {n : Nat}, (∀ d ∈ B, d.Bytes) →
    (∀ c ∈ cov, c ≤ 255) → cov.length = B.length → n = 4 * A.length →
    blendRow (flat (A ++ B ++ C)) n cov p.r p.g p.b p.a = .ok (flat (A ++ List.zipWith (over p) cov B ++ C))
  | [], [], A, C, n, _, _, _, _ => by simp [blendRow]
  | [], _ :: _, _, _, _, _, _, h, _ => by simp at h
  | _ :: _, [], _, _, _, _, _, h, _ => by simp at h
  | d :: B, c :: cov, A, C, n, hB, hc, hl, hn => by
    rw [blendRow, List.append_assoc, List.cons_append, pixel_eq hp (hB d (by simp)) (hc c (by simp)) hn]
    simp only [bind]
    have := row_eq hp (B := B) (cov := cov) (A := A ++ [over p c d]) (C := C) (n := n + 4) (fun d hd => hB d (by simp [hd]))
      (fun c hcc => hc c (by simp [hcc])) (by simpa using hl) (by rw [hn, List.length_append, List.length_singleton]; omega)
    rw [List.append_assoc, List.append_assoc] at this
    rw [List.singleton_append] at this
    rw [this]
    simp

/-! ## Four pixels at once -/

theorem over_zero (p d : Px) : over p 0 d = d := by
  unfold over
  simp only [scale_zero, Nat.zero_add, Nat.sub_zero, scale_255]

theorem lane {q c d i : Nat} (hq : q ≤ 255) (hc : c ≤ 255) (hd : d ≤ 255) (hi : i ≤ 255) (hs : scale q c + scale d i ≤ 255) :
    (mulLane q c + mulLane d i) % 65536 % 256 = scale q c + scale d i := by
  rw [mulLane_eq hq hc, mulLane_eq hd hi]
  omega

theorem four_eq {p d0 d1 d2 d3 : Px} {c0 c1 c2 c3 : Nat} (hp : p.Premultiplied) (h0 : d0.Bytes) (h1 : d1.Bytes) (h2 : d2.Bytes)
    (h3 : d3.Bytes) (k0 : c0 ≤ 255) (k1 : c1 ≤ 255) (k2 : c2 ≤ 255) (k3 : c3 ≤ 255) {A C : List Px} {n : Nat} (hn : n = 4 * A.length) :
    blendFour (flat (A ++ d0 :: d1 :: d2 :: d3 :: C)) n c0 c1 c2 c3 p.r p.g p.b p.a =
      .ok (flat (A ++ over p c0 d0 :: over p c1 d1 :: over p c2 d2 :: over p c3 d3 :: C)) := by
  obtain ⟨p1, p2, p3, p4⟩ := id hp
  obtain ⟨a1, a2, a3, a4⟩ := h0
  obtain ⟨b1, b2, b3, b4⟩ := h1
  obtain ⟨e1, e2, e3, e4⟩ := h2
  obtain ⟨f1, f2, f3, f4⟩ := h3
  unfold blendFour
  by_cases hz : (c0 ||| c1 ||| c2 ||| c3) = 0
  · rw [if_neg (by simp [hz])]
    rw [Nat.or_eq_zero_iff, Nat.or_eq_zero_iff, Nat.or_eq_zero_iff] at hz
    obtain ⟨⟨⟨rfl, rfl⟩, rfl⟩, rfl⟩ := hz
    simp only [over_zero]
  · rw [if_pos hz]
    have hlen : (flat A).length = n := by rw [flat_length, hn]
    have s0 := scale_le (b := c0) p4
    have s1 := scale_le (b := c1) p4
    have s2 := scale_le (b := c2) p4
    have s3 := scale_le (b := c3) p4
    simp only [List.zipWith, List.getD_cons_succ, List.getD_cons_zero, mulLane_eq p4 k0, mulLane_eq p4 k1, mulLane_eq p4 k2,
      mulLane_eq p4 k3, inv255]
    rw [if_pos (by omega), if_pos (by omega), if_pos (by omega), if_pos (by omega)]
    simp only [bind]
    rw [flat_append, flat_cons, flat_cons, flat_cons, flat_cons]
    have hl : n + 16 ≤ (flat A ++ d0.r :: d0.g :: d0.b :: d0.a :: d1.r :: d1.g :: d1.b :: d1.a :: d2.r :: d2.g :: d2.b ::
        d2.a :: d3.r :: d3.g :: d3.b :: d3.a :: flat C).length := by
      rw [List.length_append, hlen]; simp only [List.length_cons]; omega
    rw [if_pos hl]
    have hdrop : ∀ Y : List Nat, (flat A ++ Y).drop n = Y := fun Y => by rw [← hlen, List.drop_left]
    have htake : ∀ Y : List Nat, (flat A ++ Y).take n = flat A := fun Y => by rw [← hlen, List.take_left]
    rw [← List.drop_drop, hdrop, htake]
    simp only [List.take_succ_cons, List.take_zero, List.drop_succ_cons, List.drop_zero, List.zipWith]
    rw [flat_append, flat_cons, flat_cons, flat_cons, flat_cons]
    have i0 : 255 - scale p.a c0 ≤ 255 := by omega
    have i1 : 255 - scale p.a c1 ≤ 255 := by omega
    have i2 : 255 - scale p.a c2 ≤ 255 := by omega
    have i3 : 255 - scale p.a c3 ≤ 255 := by omega
    have q1 : p.r ≤ 255 := by omega
    have q2 : p.g ≤ 255 := by omega
    have q3 : p.b ≤ 255 := by omega
    have le := Nat.le_refl p.a
    have w : ∀ {q c d : Nat}, q ≤ p.a → c ≤ 255 → d ≤ 255 →
        (scale q c + mulLane d (255 - scale p.a c)) % 65536 % 256 = scale q c + scale d (255 - scale p.a c) := by
      intro q c d hq hc hd
      have := lane (q := q) (by omega) hc hd (Nat.sub_le 255 (scale p.a c)) (sums hp hc q d hq hd)
      rwa [mulLane_eq (by omega) hc] at this
    rw [mulLane_eq q1 k0, mulLane_eq q2 k0, mulLane_eq q3 k0, mulLane_eq q1 k1, mulLane_eq q2 k1, mulLane_eq q3 k1,
      mulLane_eq q1 k2, mulLane_eq q2 k2, mulLane_eq q3 k2, mulLane_eq q1 k3, mulLane_eq q2 k3, mulLane_eq q3 k3]
    rw [w p1 k0 a1, w p2 k0 a2, w p3 k0 a3, w le k0 a4, w p1 k1 b1, w p2 k1 b2, w p3 k1 b3, w le k1 b4, w p1 k2 e1, w p2 k2 e2,
      w p3 k2 e3, w le k2 e4, w p1 k3 f1, w p2 k3 f2, w p3 k3 f3, w le k3 f4]
    simp only [over, List.append_assoc, List.cons_append, List.nil_append]

theorem row_simd_eq {p : Px} (hp : p.Premultiplied) : ∀ {cov : List Nat} {B : List Px} {A C : List Px} {n : Nat}, (∀ d ∈ B, d.Bytes) →
    (∀ c ∈ cov, c ≤ 255) → cov.length = B.length → n = 4 * A.length →
    blendRowSimd (flat (A ++ B ++ C)) n cov p.r p.g p.b p.a = .ok (flat (A ++ List.zipWith (over p) cov B ++ C))
  | c0 :: c1 :: c2 :: c3 :: cov, d0 :: d1 :: d2 :: d3 :: B, A, C, n, hB, hc, hl, hn => by
    rw [blendRowSimd]
    rw [List.append_assoc]
    simp only [List.cons_append]
    rw [four_eq hp (hB d0 (by simp)) (hB d1 (by simp)) (hB d2 (by simp)) (hB d3 (by simp)) (hc c0 (by simp)) (hc c1 (by simp))
      (hc c2 (by simp)) (hc c3 (by simp)) hn]
    simp only [bind]
    have := row_simd_eq hp (B := B) (cov := cov) (A := A ++ [over p c0 d0, over p c1 d1, over p c2 d2, over p c3 d3]) (C := C)
      (n := n + 16) (fun d hd => hB d (by simp [hd]))
      (fun c hcc => hc c (by simp [hcc])) (by simpa using hl) (by rw [hn, List.length_append]; simp; omega)
    rw [List.append_assoc, List.append_assoc] at this
    simp only [List.cons_append, List.nil_append] at this
    rw [this]
    simp
  | [], B, A, C, n, hB, hc, hl, hn => by rw [blendRowSimd]; exact row_eq hp hB hc hl hn; simp
  | [c0], B, A, C, n, hB, hc, hl, hn => by rw [blendRowSimd]; exact row_eq hp hB hc hl hn; simp
  | [c0, c1], B, A, C, n, hB, hc, hl, hn => by rw [blendRowSimd]; exact row_eq hp hB hc hl hn; simp
  | [c0, c1, c2], B, A, C, n, hB, hc, hl, hn => by rw [blendRowSimd]; exact row_eq hp hB hc hl hn; simp
  | _ :: _ :: _ :: _ :: _, [], _, _, _, _, _, hl, _ => by simp at hl
  | _ :: _ :: _ :: _ :: _, [_], _, _, _, _, _, hl, _ => by simp at hl
  | _ :: _ :: _ :: _ :: _, [_, _], _, _, _, _, _, hl, _ => by simp at hl
  | _ :: _ :: _ :: _ :: _, [_, _, _], _, _, _, _, _, hl, _ => by simp at hl

/-! ## Rows of a frame -/

/-- The pixels from `s` on, `run` of them, changed by `f`, which is given the place in the tile, from `k` on. -/
def rowOf (f : Nat → Px → Px) (F : List Px) (s k run : Nat) : List Px :=
  F.mapIdx (fun i d => if s ≤ i ∧ i < s + run then f (k + (i - s)) d else d)

theorem rowOf_length (f : Nat → Px → Px) (F : List Px) (s k run : Nat) : (rowOf f F s k run).length = F.length := by
  unfold rowOf; rw [List.length_mapIdx]

theorem rowOf_get (f : Nat → Px → Px) (F : List Px) (s k run i : Nat) :
    (rowOf f F s k run)[i]? = if s ≤ i ∧ i < s + run then F[i]?.map (f (k + (i - s))) else F[i]? := by
  unfold rowOf
  rw [List.getElem?_mapIdx]
  by_cases h : s ≤ i ∧ i < s + run
  · simp only [if_pos h]
  · simp only [if_neg h]
    cases F[i]? <;> rfl

theorem row_split {f : Nat → Px → Px} {F : List Px} {s k run : Nat} (h : s + run ≤ F.length) {M : List Px} (hl : M.length = run)
    (hm : ∀ j, j < run → M[j]? = F[s + j]?.map (f (k + j))) :
    F.take s ++ M ++ F.drop (s + run) = rowOf f F s k run := by
  apply List.ext_getElem?
  intro i
  rw [rowOf_get]
  have ht : (F.take s).length = s := by rw [List.length_take]; omega
  by_cases h1 : i < s
  · rw [if_neg (by omega), List.append_assoc, List.getElem?_append_left (by omega), List.getElem?_take, if_pos h1]
  · by_cases h2 : i < s + run
    · rw [if_pos ⟨by omega, h2⟩, List.getElem?_append_left (by rw [List.length_append]; omega),
        List.getElem?_append_right (by omega), ht, hm _ (by omega)]
      congr 2
      omega
    · rw [if_neg (by omega), List.getElem?_append_right (by rw [List.length_append]; omega), List.length_append, ht, hl,
        List.getElem?_drop]
      congr 1
      omega

theorem parts {F : List Px} {s run : Nat} : F = F.take s ++ (F.drop s).take run ++ F.drop (s + run) := by
  rw [← List.drop_drop, List.append_assoc, List.take_append_drop, List.take_append_drop]

theorem row_get {cov : List Nat} {F : List Px} {p : Px} {s k run : Nat} (hc : k + run ≤ cov.length) (hF : s + run ≤ F.length) :
    ∀ j, j < run → (List.zipWith (over p) ((cov.drop k).take run) ((F.drop s).take run))[j]? =
      F[s + j]?.map (fun d => over p (cov.getD (k + j) 0) d) := by
  intro j hj
  rw [List.getElem?_zipWith, List.getElem?_take, List.getElem?_take, if_pos hj, if_pos hj, List.getElem?_drop, List.getElem?_drop,
    List.getD_eq_getElem?_getD]
  rw [List.getElem?_eq_getElem (show k + j < cov.length by omega), List.getElem?_eq_getElem (show s + j < F.length by omega)]
  rfl

theorem cov_row {simd : Bool} {p : Px} (hp : p.Premultiplied) {cov : List Nat} {F : List Px} {s k run : Nat}
    (hc : k + run ≤ cov.length) (hF : s + run ≤ F.length) (hB : ∀ d ∈ F, d.Bytes) (hcb : ∀ c ∈ cov, c ≤ 255) :
    (if simd then blendRowSimd (flat F) (s * 4) ((cov.drop k).take run) p.r p.g p.b p.a
      else blendRow (flat F) (s * 4) ((cov.drop k).take run) p.r p.g p.b p.a) =
      .ok (flat (rowOf (fun i d => over p (cov.getD i 0) d) F s k run)) := by
  have h1 : ∀ d ∈ (F.drop s).take run, d.Bytes := fun d hd => hB d (List.mem_of_mem_drop (List.mem_of_mem_take hd))
  have h2 : ∀ c ∈ (cov.drop k).take run, c ≤ 255 := fun c hd => hcb c (List.mem_of_mem_drop (List.mem_of_mem_take hd))
  have l1 : ((cov.drop k).take run).length = run := by rw [List.length_take, List.length_drop]; omega
  have l2 : ((F.drop s).take run).length = run := by rw [List.length_take, List.length_drop]; omega
  have l3 : s * 4 = 4 * (F.take s).length := by rw [List.length_take]; omega
  have e := row_split (f := fun i d => over p (cov.getD i 0) d) (k := k) hF (M := List.zipWith (over p) ((cov.drop k).take run) ((F.drop s).take run))
    (by rw [List.length_zipWith]; omega) (row_get hc hF)
  rw [← e]
  have hs := row_simd_eq hp h1 h2 (l1.trans l2.symm) l3 (C := F.drop (s + run))
  have hr := row_eq hp h1 h2 (l1.trans l2.symm) l3 (C := F.drop (s + run))
  rw [← parts] at hs hr
  cases simd
  · exact hr
  · exact hs

theorem over_bytes {p d : Px} {c : Nat} (hp : p.Premultiplied) (hd : d.Bytes) (hc : c ≤ 255) : (over p c d).Bytes :=
  ⟨sums hp hc _ _ hp.1 hd.1, sums hp hc _ _ hp.2.1 hd.2.1, sums hp hc _ _ hp.2.2.1 hd.2.2.1, sums hp hc _ _ (Nat.le_refl _) hd.2.2.2⟩

theorem over_premultiplied {p d : Px} {c : Nat} (hp : p.Premultiplied) (hd : d.Premultiplied) (hc : c ≤ 255) :
    (over p c d).Premultiplied := by
  obtain ⟨d1, d2, d3, d4⟩ := hd
  refine ⟨?_, ?_, ?_, sums hp hc _ _ (Nat.le_refl _) d4⟩ <;> unfold over <;>
    apply Nat.add_le_add <;> apply scale_mono
  · exact hp.1
  · exact d1
  · exact hp.2.1
  · exact d2
  · exact hp.2.2.1
  · exact d3

theorem bytes_of_premultiplied {d : Px} (h : d.Premultiplied) : d.Bytes := by
  obtain ⟨h1, h2, h3, h4⟩ := h
  exact ⟨by omega, by omega, by omega, h4⟩

theorem rowOf_all {P : Px → Prop} {f : Nat → Px → Px} {F : List Px} {s k run : Nat} (hF : ∀ d ∈ F, P d)
    (hf : ∀ i d, k ≤ i → i < k + run → P d → P (f i d)) : ∀ d ∈ rowOf f F s k run, P d := by
  intro d hd
  obtain ⟨i, hi⟩ := List.mem_iff_getElem?.1 hd
  rw [rowOf_get] at hi
  by_cases h : s ≤ i ∧ i < s + run
  · rw [if_pos h] at hi
    obtain ⟨d', hd', rfl⟩ := Option.map_eq_some_iff.1 hi
    exact hf _ _ (by omega) (by omega) (hF d' (List.mem_of_getElem? hd'))
  · rw [if_neg h] at hi
    exact hF d (List.mem_of_getElem? hi)

/-- Row after row: `ty` in the tile and `Y` in the frame. -/
def rowsOf (f : Nat → Px → Px) (dw tw X0 tx0 run : Nat) : Nat → Nat → Nat → List Px → List Px
  | 0, _, _, F => F
  | n + 1, ty, Y, F => rowsOf f dw tw X0 tx0 run n (ty + 1) (Y + 1) (rowOf f F (Y * dw + X0) (ty * tw + tx0) run)

theorem rowsOf_length (f : Nat → Px → Px) (dw tw X0 tx0 run : Nat) : ∀ (n ty Y : Nat) (F : List Px),
    (rowsOf f dw tw X0 tx0 run n ty Y F).length = F.length
  | 0, _, _, _ => rfl
  | n + 1, ty, Y, F => by rw [rowsOf, rowsOf_length, rowOf_length]

theorem rowsOf_all {P : Px → Prop} {f : Nat → Px → Px} {dw tw X0 tx0 run : Nat} (hrun : tx0 + run ≤ tw) {th : Nat}
    (hf : ∀ i d, i < tw * th → P d → P (f i d)) : ∀ {n ty Y : Nat} {F : List Px}, ty + n ≤ th → (∀ d ∈ F, P d) →
    ∀ d ∈ rowsOf f dw tw X0 tx0 run n ty Y F, P d
  | 0, _, _, _, _, hF => hF
  | n + 1, ty, Y, F, hn, hF => by
    rw [rowsOf]
    refine rowsOf_all hrun hf (by omega) (rowOf_all hF (fun i d _ h => hf i d ?_))
    have : (ty + 1) * tw ≤ th * tw := Nat.mul_le_mul_right tw (by omega)
    rw [Nat.mul_comm tw th]
    rw [Nat.add_mul, Nat.one_mul] at this
    omega

theorem row_unique {dw a b c d : Nat} (hb : b < dw) (hd : d < dw) (h : a * dw + b = c * dw + d) : a = c ∧ b = d := by
  have hdw : 0 < dw := by omega
  have h1 : (a * dw + b) / dw = a := by rw [Nat.mul_comm, Nat.mul_add_div hdw, Nat.div_eq_of_lt hb, Nat.add_zero]
  have h2 : (c * dw + d) / dw = c := by rw [Nat.mul_comm, Nat.mul_add_div hdw, Nat.div_eq_of_lt hd, Nat.add_zero]
  have : a = c := by rw [← h1, ← h2, h]
  subst this
  exact ⟨rfl, by omega⟩

theorem in_row {dw X0 run px py Y : Nat} (hx : X0 + run ≤ dw) (hpx : px < dw) :
    (Y * dw + X0 ≤ py * dw + px ∧ py * dw + px < Y * dw + X0 + run) ↔ (py = Y ∧ X0 ≤ px ∧ px < X0 + run) := by
  constructor
  · rintro ⟨h1, h2⟩
    obtain ⟨j, hj⟩ : ∃ j, py * dw + px = Y * dw + (X0 + j) := ⟨py * dw + px - (Y * dw + X0), by omega⟩
    obtain ⟨rfl, rfl⟩ := row_unique hpx (by omega) hj
    omega
  · rintro ⟨rfl, h1, h2⟩
    omega

theorem rowsOf_get {f : Nat → Px → Px} {dw tw X0 tx0 run : Nat} (hx : X0 + run ≤ dw) {px py : Nat} (hpx : px < dw) :
    ∀ (n ty Y : Nat) (F : List Px), (rowsOf f dw tw X0 tx0 run n ty Y F)[py * dw + px]? =
      if (Y ≤ py ∧ py < Y + n) ∧ X0 ≤ px ∧ px < X0 + run then
        F[py * dw + px]?.map (f ((ty + (py - Y)) * tw + tx0 + (px - X0))) else F[py * dw + px]?
  | 0, ty, Y, F => by rw [if_neg (by omega)]; rfl
  | n + 1, ty, Y, F => by
    rw [rowsOf, rowsOf_get hx hpx n, rowOf_get]
    simp only [in_row hx hpx]
    by_cases hX : X0 ≤ px ∧ px < X0 + run
    · by_cases h1 : py = Y
      · subst h1
        rw [if_neg (by omega), if_pos ⟨rfl, hX⟩, if_pos ⟨by omega, hX⟩]
        congr 2
        rw [Nat.sub_self, Nat.add_zero]
        omega
      · by_cases h2 : Y + 1 ≤ py ∧ py < Y + 1 + n
        · rw [if_pos ⟨h2, hX⟩, if_neg (by omega), if_pos ⟨by omega, hX⟩]
          rw [show ty + 1 + (py - (Y + 1)) = ty + (py - Y) by omega]
        · rw [if_neg (fun h => h2 h.1), if_neg (by omega), if_neg (by omega)]
    · rw [if_neg (fun h => hX h.2), if_neg (fun h => hX h.2), if_neg (fun h => hX h.2)]

/-! ## Places -/

theorem i32_ok {n : Int} (h : -2147483648 ≤ n ∧ n ≤ 2147483647) : i32 n = .ok n := if_pos h

theorem places_eq {dw tw x y tx0 ty : Int} {k s : Nat} (hk : ty * tw + tx0 = k) (hs : (y + ty) * dw + x + tx0 = s)
    (hk' : k < 2147483648) (hs' : s < 2147483648) (h0 : 0 ≤ tx0) (h1 : 0 ≤ ty * tw) (h2 : 0 ≤ (y + ty) * dw)
    (h3 : (y + ty) * dw < 2147483648) (hx : -2147483648 ≤ x) (hy : 0 ≤ y + ty) (hy' : y + ty < 2147483648) :
    places dw tw x y tx0 ty = .ok (k, s) := by
  unfold places
  rw [i32_ok (by omega)]
  simp only [bind]
  rw [i32_ok (by omega), i32_ok (by omega)]
  simp only
  rw [i32_ok (by omega)]
  simp only
  rw [i32_ok (by omega)]
  simp only
  rw [i32_ok (by omega)]
  simp only [index]
  rw [if_pos (by omega), if_pos (by omega), hk, hs]
  rfl

theorem asI32_eq {n : Nat} (h : n ≤ 2 ^ 30) : asI32 n = n := by unfold asI32; rw [if_pos (by omega)]

theorem clip_eq {dw dh tw th : Nat} {x y : Int} (h : Moderate dw dh tw th x y) :
    clip dw dh tw th x y = .ok (if min (th : Int) (dh - y) ≤ max (-y) 0 ∨ min (tw : Int) (dw - x) ≤ max (-x) 0 then none
      else some (max (-y) 0, min (th : Int) (dh - y), max (-x) 0, min (tw : Int) (dw - x))) := by
  obtain ⟨h1, h2, h3, h4, _, _, h7, h8, h9, h10⟩ := h
  unfold clip
  rw [i32_ok (by omega), i32_ok (by omega), i32_ok (by omega), i32_ok (by omega)]
  simp only [bind]
  split <;> rfl

/-- The numbers of a clipped tile: `ty0` rows and `tx0` columns are cut off at the top and at the left, `n` rows of `run` pixels
are left, and the first of them is at `(X0, Y0)` of the frame. -/
structure Clipped (dw dh tw th : Nat) (x y : Int) (ty0 tx0 Y0 X0 n run : Nat) : Prop where
  tile_y : ty0 + n ≤ th
  tile_x : tx0 + run ≤ tw
  frame_y : Y0 + n ≤ dh
  frame_x : X0 + run ≤ dw
  place_y : (Y0 : Int) = y + ty0
  place_x : (X0 : Int) = x + tx0
  all : ∀ px py tx ty : Nat, px < dw → py < dh → (px : Int) = x + tx → (py : Int) = y + ty → tx < tw → ty < th →
    (Y0 ≤ py ∧ py < Y0 + n) ∧ X0 ≤ px ∧ px < X0 + run

theorem clip_cases {dw dh tw th : Nat} {x y : Int} (h : Moderate dw dh tw th x y) :
    (clip dw dh tw th x y = .ok none ∧ ∀ px py tx ty : Nat, px < dw → py < dh → (px : Int) = x + tx → (py : Int) = y + ty →
      tx < tw → ty < th → False) ∨
    ∃ ty0 tx0 Y0 X0 n run : Nat, ∃ ty1 tx1 : Int, clip dw dh tw th x y = .ok (some (ty0, ty1, tx0, tx1)) ∧
      (tx1 - tx0).toNat = run ∧ (ty1 - ty0).toNat = n ∧ Clipped dw dh tw th x y ty0 tx0 Y0 X0 n run := by
  rw [clip_eq h]
  by_cases hc : min (th : Int) (dh - y) ≤ max (-y) 0 ∨ min (tw : Int) (dw - x) ≤ max (-x) 0
  · refine Or.inl ⟨by rw [if_pos hc], ?_⟩
    intro px py tx ty h1 h2 h3 h4 h5 h6
    omega
  · refine Or.inr ⟨(max (-y) 0).toNat, (max (-x) 0).toNat, (y + max (-y) 0).toNat, (x + max (-x) 0).toNat,
      (min (th : Int) (dh - y) - max (-y) 0).toNat, (min (tw : Int) (dw - x) - max (-x) 0).toNat,
      min (th : Int) (dh - y), min (tw : Int) (dw - x), ?_, ?_, ?_, ?_⟩
    · rw [if_neg hc, Int.toNat_of_nonneg (by omega), Int.toNat_of_nonneg (by omega)]
    · rw [Int.toNat_of_nonneg (by omega)]
    · rw [Int.toNat_of_nonneg (by omega)]
    · refine ⟨by omega, by omega, by omega, by omega, by omega, by omega, ?_⟩
      intro px py tx ty h1 h2 h3 h4 h5 h6
      omega

theorem clip_some_run {dw dh tw th : Nat} {x y : Int} (h : Moderate dw dh tw th x y) {ty0 ty1 tx0 tx1 : Int}
    (hc : clip dw dh tw th x y = .ok (some (ty0, ty1, tx0, tx1))) : 0 < (tx1 - tx0).toNat := by
  rw [clip_eq h] at hc
  by_cases hz : min (th : Int) (dh - y) ≤ max (-y) 0 ∨ min (tw : Int) (dw - x) ≤ max (-x) 0
  · rw [if_pos hz] at hc
    cases hc
  · rw [if_neg hz] at hc
    injection hc with hc
    injection hc with hc
    injection hc with e1 hc
    injection hc with e2 hc
    injection hc with e3 e4
    omega

theorem getD_byte {cov : List Nat} (hc : ∀ c ∈ cov, c ≤ 255) (i : Nat) : cov.getD i 0 ≤ 255 := by
  rw [List.getD_eq_getElem?_getD]
  cases hi : cov[i]? with
  | none => simp
  | some c => exact hc c (List.mem_of_getElem? hi)

theorem mul_lt_area {a b c d : Nat} (h : a + 1 ≤ c) (hd : b ≤ d) : a * d + b ≤ c * d := by
  have := Nat.mul_le_mul_right d h
  rw [Nat.add_mul, Nat.one_mul] at this
  omega

theorem places_clipped {dw dh tw th : Nat} {x y : Int} (h : Moderate dw dh tw th x y) {ty tx0 Y X0 run : Nat} (hr : 0 < run)
    (ht : ty < th) (hx : tx0 + run ≤ tw) (hY : Y < dh) (hX : X0 + run ≤ dw) (ey : (Y : Int) = y + ty) (ex : (X0 : Int) = x + tx0) :
    places dw tw x y tx0 ty = .ok (ty * tw + tx0, Y * dw + X0) := by
  obtain ⟨h1, h2, h3, h4, h5, h6, h7, h8, h9, h10⟩ := h
  have a1 : ty * tw + (tx0 + run) ≤ th * tw := mul_lt_area (by omega) hx
  have a2 : Y * dw + (X0 + run) ≤ dh * dw := mul_lt_area (by omega) hX
  rw [Nat.mul_comm] at a1 a2
  rw [Nat.mul_comm dh dw] at a2
  rw [Nat.mul_comm tw ty, Nat.mul_comm th tw] at a1
  have e1 : (ty : Int) * (tw : Int) = ((ty * tw : Nat) : Int) := by rw [Int.natCast_mul]
  have e2 : (Y : Int) * (dw : Int) = ((Y * dw : Nat) : Int) := by rw [Int.natCast_mul]
  rw [Nat.mul_comm dw Y] at a2
  generalize hm : ty * tw = m at *
  generalize hm' : Y * dw = m' at *
  apply places_eq
  · omega
  · rw [← ey]; omega
  · omega
  · omega
  · omega
  · omega
  · rw [← ey]; omega
  · rw [← ey]; omega
  · omega
  · omega
  · omega

theorem cov_rows {dw dh tw th : Nat} {x y : Int} (h : Moderate dw dh tw th x y) {tx0 X0 run : Nat} (hr : 0 < run) (simd : Bool)
    (hx : tx0 + run ≤ tw) (hX : X0 + run ≤ dw) (ex : (X0 : Int) = x + tx0) {p : Px} (hp : p.Premultiplied) {cov : List Nat}
    (hcl : cov.length = tw * th) (hcb : ∀ c ∈ cov, c ≤ 255) : ∀ {n ty Y : Nat} {F : List Px}, F.length = dw * dh →
    (∀ d ∈ F, d.Bytes) → ty + n ≤ th → Y + n ≤ dh → (Y : Int) = y + ty →
    coverageRows (fun dst di cov => if simd then blendRowSimd dst di cov p.r p.g p.b p.a else blendRow dst di cov p.r p.g p.b p.a)
      cov dw tw x y tx0 run n ty (flat F) = .ok (flat (rowsOf (fun i d => over p (cov.getD i 0) d) dw tw X0 tx0 run n ty Y F))
  | 0, _, _, _, _, _, _, _, _ => rfl
  | n + 1, ty, Y, F, hF, hB, ht, hY, ey => by
    have b1 := mul_lt_area (a := ty) (c := th) (by omega) hx
    have b2 := mul_lt_area (a := Y) (c := dh) (by omega) hX
    rw [Nat.mul_comm th tw] at b1
    rw [Nat.mul_comm dh dw] at b2
    have b1' : ty * tw + tx0 + run ≤ cov.length := by omega
    have b2' : Y * dw + X0 + run ≤ F.length := by omega
    rw [coverageRows, places_clipped h hr (by omega) hx (by omega) hX ey ex]
    simp only [bind]
    unfold slice
    rw [if_pos b1']
    simp only
    rw [cov_row hp b1' b2' hB hcb]
    simp only
    have := cov_rows h hr simd hx hX ex hp hcl hcb (n := n) (ty := ty + 1) (Y := Y + 1)
      (F := rowOf (fun i d => over p (cov.getD i 0) d) F (Y * dw + X0) (ty * tw + tx0) run) (by rw [rowOf_length, hF])
      (rowOf_all hB (fun i d _ _ hd => over_bytes hp hd (by
        rw [List.getD_eq_getElem?_getD]
        cases hi : cov[i]? with
        | none => simp
        | some c => exact hcb c (List.mem_of_getElem? hi)))) (by omega) (by omega) (by omega)
    rw [rowsOf, ← this]
    rfl

theorem premultiply_ok {r g b a : Nat} (hr : r ≤ 255) (hg : g ≤ 255) (hb : b ≤ 255) (ha : a ≤ 255) :
    (premultiply r g b a).Premultiplied := ⟨scale_le hr, scale_le hg, scale_le hb, ha⟩

/-! ## A bitmap of pixels -/

theorem overChannel_eq {X Y : List Nat} {d q i : Nat} (hd : d ≤ 255) (hi : i ≤ 255)
    (hs : q + scale d i ≤ 255) {n : Nat} (hn : n = X.length) :
    overChannel (X ++ d :: Y) n q i = .ok (X ++ (q + scale d i) :: Y) := by
  subst hn
  unfold overChannel get
  rw [List.getElem?_append_right (Nat.le_refl _), Nat.sub_self, List.getElem?_cons_zero]
  simp only [bind]
  rw [mul255_eq hd hi]
  simp only
  unfold u16
  rw [if_pos (by omega)]
  simp only
  rw [List.set_append_right _ _ (Nat.le_refl _), Nat.sub_self, List.set_cons_zero, Nat.mod_eq_of_lt (by omega)]

theorem get_at {X Y : List Nat} {d n : Nat} (hn : n = X.length) : get (X ++ d :: Y) n = .ok d := by
  subst hn
  unfold get
  rw [List.getElem?_append_right (Nat.le_refl _), Nat.sub_self, List.getElem?_cons_zero]

theorem over_full (q d : Px) : over q 255 d = ⟨q.r + scale d.r (255 - q.a), q.g + scale d.g (255 - q.a),
    q.b + scale d.b (255 - q.a), q.a + scale d.a (255 - q.a)⟩ := by
  unfold over
  simp only [scale_255]

theorem overPixel_eq {q d : Px} (hq : q.Premultiplied) (hd : d.Bytes) {A C U V : List Px} {n k : Nat}
    (hn : n = 4 * A.length) (hk : k = 4 * U.length) :
    overPixel (flat (A ++ d :: C)) (flat (U ++ q :: V)) n k = .ok (flat (A ++ over q 255 d :: C)) := by
  obtain ⟨q1, q2, q3, q4⟩ := id hq
  obtain ⟨d1, d2, d3, d4⟩ := hd
  have g0 : get (flat (U ++ q :: V)) k = .ok q.r := by
    rw [flat_append, flat_cons]; exact get_at (by rw [flat_length, hk])
  have g1 : get (flat (U ++ q :: V)) (k + 1) = .ok q.g := by
    rw [flat_append, flat_cons, List.append_cons]; exact get_at (by rw [List.length_append, flat_length, hk]; rfl)
  have g2 : get (flat (U ++ q :: V)) (k + 2) = .ok q.b := by
    rw [flat_append, flat_cons, List.append_cons, List.append_cons]
    exact get_at (by rw [List.length_append, List.length_append, flat_length, hk]; rfl)
  have g3 : get (flat (U ++ q :: V)) (k + 3) = .ok q.a := by
    rw [flat_append, flat_cons, List.append_cons, List.append_cons, List.append_cons]
    exact get_at (by rw [List.length_append, List.length_append, List.length_append, flat_length, hk]; rfl)
  generalize flat (U ++ q :: V) = S at g0 g1 g2 g3
  unfold overPixel
  rw [g3]
  simp only [bind]
  rw [flat_append, flat_append, flat_cons, flat_cons, over_full]
  by_cases h0 : q.a = 0
  · rw [if_pos h0]
    have r0 : q.r = 0 := by omega
    have r1 : q.g = 0 := by omega
    have r2 : q.b = 0 := by omega
    simp only [h0, r0, r1, r2, Nat.zero_add, Nat.sub_zero, scale_255]
  · rw [if_neg h0]
    unfold inv255
    rw [if_pos q4]
    have hi : 255 - q.a ≤ 255 := by omega
    have s : ∀ t d, t ≤ q.a → d ≤ 255 → t + scale d (255 - q.a) ≤ 255 := by
      intro t d ht hd
      have := scale_le (b := 255 - q.a) hd
      omega
    simp only [g0, g1, g2]
    rw [overChannel_eq (X := flat A) d1 hi (s _ _ q1 d1) (by rw [flat_length, hn])]
    simp only
    rw [List.append_cons, overChannel_eq (X := flat A ++ [_]) d2 hi (s _ _ q2 d2)
      (by rw [List.length_append, flat_length, hn]; rfl)]
    simp only
    rw [List.append_cons, overChannel_eq (X := flat A ++ [_] ++ [_]) d3 hi (s _ _ q3 d3)
      (by rw [List.length_append, List.length_append, flat_length, hn]; rfl)]
    simp only
    rw [List.append_cons, overChannel_eq (X := flat A ++ [_] ++ [_] ++ [_]) d4 hi (s _ _ (Nat.le_refl _) d4)
      (by rw [List.length_append, List.length_append, List.length_append, flat_length, hn]; rfl)]
    simp

theorem overRow_eq : ∀ {B Q : List Px} {A C U V : List Px} {n k : Nat}, (∀ d ∈ B, d.Bytes) → (∀ q ∈ Q, q.Premultiplied) →
    Q.length = B.length → n = 4 * A.length → k = 4 * U.length →
    overRow (flat (U ++ Q ++ V)) B.length (flat (A ++ B ++ C)) n k =
      .ok (flat (A ++ List.zipWith (fun q d => over q 255 d) Q B ++ C))
  | [], [], A, C, U, V, n, k, _, _, _, _, _ => by simp [overRow]
  | [], _ :: _, _, _, _, _, _, _, _, _, h, _, _ => by simp at h
  | _ :: _, [], _, _, _, _, _, _, _, _, h, _, _ => by simp at h
  | d :: B, q :: Q, A, C, U, V, n, k, hB, hQ, hl, hn, hk => by
    rw [List.length_cons, overRow, List.append_assoc, List.append_assoc, List.cons_append, List.cons_append,
      overPixel_eq (hQ q (by simp)) (hB d (by simp)) hn hk]
    simp only [bind]
    have := overRow_eq (B := B) (Q := Q) (A := A ++ [over q 255 d]) (C := C) (U := U ++ [q]) (V := V) (n := n + 4) (k := k + 4)
      (fun d hd => hB d (by simp [hd])) (fun q hq => hQ q (by simp [hq])) (by simpa using hl)
      (by rw [hn, List.length_append, List.length_singleton]; omega) (by rw [hk, List.length_append, List.length_singleton]; omega)
    simp only [List.append_assoc, List.cons_append, List.nil_append] at this
    rw [this]
    simp

/-- The pixel of a bitmap at a place. -/
def pixelAt (S : List Px) (i : Nat) : Px := S.getD i ⟨0, 0, 0, 0⟩

theorem pixelAt_ok {S : List Px} (hS : ∀ q ∈ S, q.Premultiplied) (i : Nat) : (pixelAt S i).Premultiplied := by
  unfold pixelAt
  rw [List.getD_eq_getElem?_getD]
  cases hi : S[i]? with
  | none => unfold Px.Premultiplied; simp
  | some c => exact hS c (List.mem_of_getElem? hi)

theorem rgba_row {S F : List Px} {s k run : Nat} (hc : k + run ≤ S.length) (hF : s + run ≤ F.length) (hB : ∀ d ∈ F, d.Bytes)
    (hS : ∀ q ∈ S, q.Premultiplied) :
    overRow (flat S) run (flat F) (s * 4) (k * 4) = .ok (flat (rowOf (fun i d => over (pixelAt S i) 255 d) F s k run)) := by
  have h1 : ∀ d ∈ (F.drop s).take run, d.Bytes := fun d hd => hB d (List.mem_of_mem_drop (List.mem_of_mem_take hd))
  have h2 : ∀ q ∈ (S.drop k).take run, q.Premultiplied := fun c hd => hS c (List.mem_of_mem_drop (List.mem_of_mem_take hd))
  have l1 : ((S.drop k).take run).length = run := by rw [List.length_take, List.length_drop]; omega
  have l2 : ((F.drop s).take run).length = run := by rw [List.length_take, List.length_drop]; omega
  have l3 : s * 4 = 4 * (F.take s).length := by rw [List.length_take]; omega
  have l4 : k * 4 = 4 * (S.take k).length := by rw [List.length_take]; omega
  have e := row_split (f := fun i d => over (pixelAt S i) 255 d) (k := k) hF
    (M := List.zipWith (fun q d => over q 255 d) ((S.drop k).take run) ((F.drop s).take run))
    (by rw [List.length_zipWith]; omega) (by
      intro j hj
      rw [List.getElem?_zipWith, List.getElem?_take, List.getElem?_take, if_pos hj, if_pos hj, List.getElem?_drop,
        List.getElem?_drop, List.getElem?_eq_getElem (show k + j < S.length by omega),
        List.getElem?_eq_getElem (show s + j < F.length by omega)]
      unfold pixelAt
      rw [List.getD_eq_getElem?_getD, List.getElem?_eq_getElem (show k + j < S.length by omega)]
      rfl)
  rw [← e]
  have := overRow_eq h1 h2 (l1.trans l2.symm) l3 l4 (C := F.drop (s + run)) (V := S.drop (k + run))
  rw [← parts, ← parts, l2] at this
  exact this

theorem rgba_rows {dw dh tw th : Nat} {x y : Int} (h : Moderate dw dh tw th x y) {tx0 X0 run : Nat} (hr : 0 < run)
    (hx : tx0 + run ≤ tw) (hX : X0 + run ≤ dw) (ex : (X0 : Int) = x + tx0) {S : List Px} (hS : ∀ q ∈ S, q.Premultiplied)
    (hSl : S.length = tw * th) : ∀ {n ty Y : Nat} {F : List Px}, F.length = dw * dh →
    (∀ d ∈ F, d.Bytes) → ty + n ≤ th → Y + n ≤ dh → (Y : Int) = y + ty →
    overRows (flat S) dw tw x y tx0 run n ty (flat F) =
      .ok (flat (rowsOf (fun i d => over (pixelAt S i) 255 d) dw tw X0 tx0 run n ty Y F))
  | 0, _, _, _, _, _, _, _, _ => rfl
  | n + 1, ty, Y, F, hF, hB, ht, hY, ey => by
    have b1 := mul_lt_area (a := ty) (c := th) (by omega) hx
    have b2 := mul_lt_area (a := Y) (c := dh) (by omega) hX
    rw [Nat.mul_comm th tw] at b1
    rw [Nat.mul_comm dh dw] at b2
    have b1' : ty * tw + tx0 + run ≤ S.length := by omega
    have b2' : Y * dw + X0 + run ≤ F.length := by omega
    rw [overRows, places_clipped h hr (by omega) hx (by omega) hX ey ex]
    simp only [bind]
    rw [rgba_row b1' b2' hB hS]
    simp only
    have := rgba_rows h hr hx hX ex hS hSl (n := n) (ty := ty + 1) (Y := Y + 1)
      (F := rowOf (fun i d => over (pixelAt S i) 255 d) F (Y * dw + X0) (ty * tw + tx0) run) (by rw [rowOf_length, hF])
      (rowOf_all hB (fun i d _ _ hd => over_bytes (pixelAt_ok hS i) hd (Nat.le_refl _))) (by omega) (by omega) (by omega)
    rw [rowsOf, ← this]
    rfl

end Verif.Blend
