import Verif.Spec.Paint
import Verif.Lemmas.Map
/-! # Lemmas about painting text -/
namespace Verif.Paint
open Verif
open Verif.Spec.Paint

variable {G T : Type}

theorem first_none {α : Type} {f : Effect → Option α} {d : Data} (h : ∀ e ∈ d.effects, f e = none) : first f d = none := by
  unfold first
  rw [List.findSome?_eq_none_iff]; exact h

theorem first_some {α : Type} {f : Effect → Option α} {d : Data} {a : α} (h : first f d = some a) : ∃ e ∈ d.effects, f e = some a :=
  List.exists_of_findSome?_eq_some h

theorem asBlur_some {e : Effect} {r : Rat} (h : asBlur e = some r) : e = .blur r := by
  cases e <;> simp [asBlur] at h ⊢
  exact h

theorem blurred_iff {d : Data} : (∃ r, first asBlur d = some r) ↔ Blurred d := by
  constructor
  · rintro ⟨r, h⟩
    obtain ⟨e, he, h⟩ := first_some h
    exact ⟨r, asBlur_some h ▸ he⟩
  · rintro ⟨r, h⟩
    cases hf : first asBlur d with
    | some r => exact ⟨r, rfl⟩
    | none =>
      unfold first at hf
      rw [List.findSome?_eq_none_iff] at hf
      have := hf _ h
      simp [asBlur] at this

/-- A layer with a key for coverage is not blurred. -/
theorem collectAll_blur {color : Color.Rgba} {es : List Effect} {l : Look} {r : Rat} (h : Effect.blur r ∈ es) :
    collectAll color es l = none := by
  induction es generalizing l with
  | nil => cases h
  | cons e es ih =>
    simp only [collectAll]
    rcases List.mem_cons.1 h with rfl | h
    · rfl
    · cases hc : collect color l e with
      | none => rfl
      | some l' => exact ih h

theorem coverageKey_face {d : Data} {t : Aff} {bl : Rat} {k : Key} {l : Look} (h : coverageKey d t bl = some (k, l)) :
    k.face = face d ∧ k.spacing = d.spacing := by
  unfold coverageKey at h
  cases hc : collectAll d.color d.effects ⟨none, none, d.color, none⟩ with
  | none => rw [hc] at h; exact nomatch h
  | some l' =>
    rw [hc] at h
    obtain ⟨rfl, _⟩ := Prod.mk.inj (Option.some.inj h)
    exact ⟨rfl, rfl⟩

theorem coverageKey_blur {d : Data} {t : Aff} {bl : Rat} (h : Blurred d) : coverageKey d t bl = none := by
  obtain ⟨r, hr⟩ := h
  unfold coverageKey
  rw [collectAll_blur hr]

/-- What is cached is what would be made afresh. -/
structure Inv (env : Env G T) (s : State G T) : Prop where
  cov : ∀ k c, s.cov.get k = some c → c = rasterize env (env.glyphs k.face k.spacing) k
  blur : ∀ k t, s.blur.get k = some t →
    t = ⟨env.glyphs k.face k.spacing, env.shape k.face, k.blur, k.fill, k.outline, k.shadow, none⟩

theorem inv_none (env : Env G T) : Inv env Spec.Paint.fresh := ⟨fun _ _ h => (nomatch h), fun _ _ h => (nomatch h)⟩

theorem get_storeCov {m : Map Key (Cached T)} {k k' : Key} {c c' : Cached T} (h : (storeCov m k c).get k' = some c') :
    (k' = k ∧ c' = c) ∨ m.get k' = some c' := by
  unfold storeCov at h
  rw [Map.get_insert] at h
  split at h
  · rename_i he; exact .inl ⟨he, (Option.some.inj h).symm⟩
  · split at h
    · exact nomatch h
    · exact .inr h

theorem get_storeBlur {m : Map BlurKey (BlurTile G)} {k k' : BlurKey} {c c' : BlurTile G} (h : (storeBlur m k c).get k' = some c') :
    (k' = k ∧ c' = c) ∨ m.get k' = some c' := by
  unfold storeBlur at h
  rw [Map.get_insert] at h
  split at h
  · rename_i he; exact .inl ⟨he, (Option.some.inj h).symm⟩
  · split at h
    · exact nomatch h
    · exact .inr h

/-- Without blur the vector path does not look at the caches. -/
theorem drawVector_sharp {d : Data} (h : first asBlur d = none) (g : G) (t : Aff) (bl : Rat) (sh : Shaped) (s s' : State G T) :
    (drawVector d g t bl sh s).1 = (drawVector d g t bl sh s').1 ∧ (drawVector d g t bl sh s).2 = s := by
  unfold drawVector drawMain
  rw [h]
  cases first asKaraoke d <;> exact ⟨rfl, rfl⟩

theorem drawBlurred_fresh {env : Env G T} {s : State G T} (hi : Inv env s) (d : Data) (bl r : Rat) :
    (drawBlurred d (env.glyphs (face d) d.spacing) bl (env.shape (face d)) r s).1 =
      (drawBlurred d (env.glyphs (face d) d.spacing) bl (env.shape (face d)) r (Spec.Paint.fresh : State G T)).1 ∧
    Inv env (drawBlurred d (env.glyphs (face d) d.spacing) bl (env.shape (face d)) r s).2 := by
  unfold drawBlurred
  cases hc : first asClip d with
  | some c => exact ⟨rfl, hi⟩
  | none =>
    dsimp only
    cases hg : s.blur.get (blurKey d r) with
    | some t =>
      refine ⟨?_, hi⟩
      rw [hi.blur _ _ hg]
      rfl
    | none =>
      refine ⟨rfl, hi.cov, ?_⟩
      intro k t h
      rcases get_storeBlur h with ⟨rfl, rfl⟩ | h
      · rfl
      · exact hi.blur k t h

theorem drawVector_fresh {env : Env G T} {s : State G T} (hi : Inv env s) (d : Data) (t : Aff) (bl : Rat) :
    (drawVector d (env.glyphs (face d) d.spacing) t bl (env.shape (face d)) s).1 =
      (drawVector d (env.glyphs (face d) d.spacing) t bl (env.shape (face d)) (Spec.Paint.fresh : State G T)).1 ∧
    Inv env (drawVector d (env.glyphs (face d) d.spacing) t bl (env.shape (face d)) s).2 := by
  cases hb : first asBlur d with
  | none =>
    have h := drawVector_sharp hb (env.glyphs (face d) d.spacing) t bl (env.shape (face d)) s Spec.Paint.fresh
    rw [h.2]
    exact ⟨h.1, hi⟩
  | some r =>
    have h := drawBlurred_fresh hi d bl r
    unfold drawVector drawMain
    rw [hb]
    dsimp only
    rw [h.1]
    exact ⟨rfl, h.2⟩

/-- With the effects that make the blurred tile all there is, the vector path paints just the tile. -/
theorem drawVector_tile {d : Data} (he : d.effects.all eligible = true) {r : Rat} (hr : first asBlur d = some r) (g : G) (t : Aff)
    (bl : Rat) (sh : Shaped) :
    (drawVector d g t bl sh (Spec.Paint.fresh : State G T)).1 =
      [putTile d bl sh r ⟨g, sh, r, d.color, first asOutline d, first asShadow d, none⟩] := by
  have hall := List.all_eq_true.1 he
  have hclip : first asClip d = none := first_none (fun e h => by
    have := hall e h; cases e <;> simp [eligible] at this ⊢ <;> rfl)
  have hedge : first asEdge d = none := first_none (fun e h => by
    have := hall e h; cases e <;> simp [eligible] at this ⊢ <;> rfl)
  have hbox : d.effects.flatMap (drawBox d g t (T := T)) = [] := by
    rw [List.flatMap_eq_nil_iff]
    intro e h
    have := hall e h; cases e <;> simp [eligible] at this ⊢ <;> rfl
  have hout : d.effects.flatMap (drawOutline d g t (T := T)) = [] := by
    rw [List.flatMap_eq_nil_iff]
    intro e h
    have := hall e h
    cases e <;> simp [eligible] at this ⊢ <;> try rfl
    unfold drawOutline
    rw [hedge, hr]
    rfl
  have hu : d.effects.any (· == Effect.underline) = false := by
    rw [List.any_eq_false]
    intro e h hh
    have := hall e h
    rw [eq_of_beq hh] at this
    exact nomatch this
  have hs : d.effects.any (· == Effect.strikethrough) = false := by
    rw [List.any_eq_false]
    intro e h hh
    have := hall e h
    rw [eq_of_beq hh] at this
    exact nomatch this
  unfold drawVector drawMain drawShadow drawLines
  rw [hbox, hout, hu, hs, hr]
  dsimp only
  unfold drawBlurred
  rw [hclip]
  rfl

theorem drawFlat_fresh {env : Env G T} {s : State G T} (hi : Inv env s) (d : Data) (t : Aff) :
    (drawFlat env d t s).1 = (drawFlat env d t (Spec.Paint.fresh : State G T)).1 ∧ Inv env (drawFlat env d t s).2 := by
  unfold drawFlat
  dsimp only
  cases hk : coverageKey d t (d.y + (env.shape (face d)).baseline) with
  | some kl =>
    obtain ⟨k, l⟩ := kl
    dsimp only
    have hf := coverageKey_face hk
    cases hg : s.cov.get k with
    | some c =>
      refine ⟨?_, hi⟩
      rw [hi.cov _ _ hg, hf.1, hf.2]
      rfl
    | none =>
      refine ⟨rfl, ?_, hi.blur⟩
      intro k' c' h
      rcases get_storeCov h with ⟨rfl, rfl⟩ | h
      · rw [hf.1, hf.2]
      · exact hi.cov k' c' h
  | none =>
    dsimp only
    have hv := drawVector_fresh hi d t (d.y + (env.shape (face d)).baseline)
    have hnone : blurHit d (d.y + (env.shape (face d)).baseline) (env.shape (face d)) (Spec.Paint.fresh : State G T) = none := by
      unfold blurHit
      split
      · cases first asBlur d <;> rfl
      · rfl
    rw [hnone]
    dsimp only
    cases hh : blurHit d (d.y + (env.shape (face d)).baseline) (env.shape (face d)) s with
    | none => exact hv
    | some o =>
      refine ⟨?_, hi⟩
      unfold blurHit at hh
      by_cases he : d.effects.all eligible = true
      · rw [if_pos he] at hh
        cases hr : first asBlur d with
        | none => rw [hr] at hh; exact nomatch hh
        | some r =>
          rw [hr] at hh
          dsimp only at hh
          cases hg : s.blur.get (blurKey d r) with
          | none => rw [hg] at hh; exact nomatch hh
          | some t' =>
            rw [hg] at hh
            rw [drawVector_tile he hr, ← Option.some.inj hh, hi.blur _ _ hg]
            rfl
      · rw [if_neg he] at hh; exact nomatch hh

/-- A layer that is not turned out of the plane has no such rotation. -/
theorem tilted_of {cosSin : Rat → Rat × Rat} {d : Data} {sh : Shaped} {t : Aff} {r : Rat × Rat × (Rat × Rat)}
    (h : turned cosSin d sh = (t, some r)) : Tilted d := by
  have key : ∀ (es : List Effect) (acc : Aff × Option (Rat × Rat × (Rat × Rat))) (b : Rat),
      (es.foldl (turn cosSin d sh b) acc).2 = some r →
      acc.2 = some r ∨ ∃ x y z o, Effect.rotation x y z o ∈ es ∧ (x ≠ 0 ∨ y ≠ 0) := by
    intro es
    induction es with
    | nil => intro acc b h; exact .inl h
    | cons e es ih =>
      intro acc b h
      rcases ih _ _ h with h | ⟨x, y, z, o, hm, hxy⟩
      · cases e with
        | rotation x y z o =>
          simp only [turn] at h
          by_cases hxy : x = 0 ∧ y = 0
          · rw [if_pos hxy] at h; exact .inl h
          · exact .inr ⟨x, y, z, o, List.mem_cons_self, by
              by_cases hx : x = 0
              · exact .inr (fun hy => hxy ⟨hx, hy⟩)
              · exact .inl hx⟩
        | _ => exact .inl h
      · exact .inr ⟨x, y, z, o, List.mem_cons_of_mem _ hm, hxy⟩
  unfold turned at h
  rcases key d.effects _ _ (by rw [h]) with h' | h'
  · exact nomatch h'
  · exact h'

theorem drawText_fresh {env : Env G T} {s : State G T} (hi : Inv env s) (d : Data) (hd : ¬(Tilted d ∧ Blurred d)) :
    (drawText env d s).1 = (drawText env d (Spec.Paint.fresh : State G T)).1 ∧ Inv env (drawText env d s).2 := by
  unfold drawText
  dsimp only
  cases ht : turned env.cosSin d (env.shape (face d)) with
  | mk t r =>
    cases r with
    | none => exact drawFlat_fresh hi d t
    | some r =>
      obtain ⟨ax, ay, c⟩ := r
      dsimp only
      have htl := tilted_of ht
      have hb : first asBlur d = none := by
        cases hb : first asBlur d with
        | none => rfl
        | some r => exact absurd ⟨htl, blurred_iff.1 ⟨r, hb⟩⟩ hd
      have h := drawVector_sharp hb (env.project (env.glyphs (face d) d.spacing) t ax ay (t.map c)) (.translate 0 0)
        (d.y + (env.shape (face d)).baseline) (env.shape (face d)) s Spec.Paint.fresh
      rw [h.2]
      exact ⟨h.1, hi⟩

/-! ## Size of the caches -/

theorem drawText_size (env : Env G T) (d : Data) (s : State G T) (h : s.cov.length ≤ 256 ∧ s.blur.length ≤ 512) :
    (drawText env d s).2.cov.length ≤ 256 ∧ (drawText env d s).2.blur.length ≤ 512 := by
  have hv : ∀ g t bl sh, (drawVector d g t bl sh s).2.cov.length ≤ 256 ∧ (drawVector d g t bl sh s).2.blur.length ≤ 512 := by
    intro g t bl sh
    unfold drawVector drawMain
    cases first asBlur d with
    | none => cases first asKaraoke d <;> exact h
    | some r =>
      dsimp only
      unfold drawBlurred
      cases first asClip d with
      | some c => exact h
      | none =>
        dsimp only
        cases s.blur.get (blurKey d r) with
        | some t => exact h
        | none =>
          refine ⟨h.1, ?_⟩
          dsimp only
          unfold storeBlur
          have := Map.length_insert_le (if 512 ≤ s.blur.length then [] else s.blur) (blurKey d r)
            ⟨g, sh, r, d.color, first asOutline d, first asShadow d, none⟩
          split at this
          · rename_i hl; rw [if_pos hl]; simp only [List.length_nil] at this; omega
          · rename_i hl; rw [if_neg hl]; omega
  unfold drawText
  dsimp only
  cases turned env.cosSin d (env.shape (face d)) with
  | mk t r =>
    cases r with
    | some r => exact hv _ _ _ _
    | none =>
      dsimp only
      unfold drawFlat
      dsimp only
      cases coverageKey d t (d.y + (env.shape (face d)).baseline) with
      | some kl =>
        dsimp only
        cases s.cov.get kl.1 with
        | some c => exact h
        | none =>
          refine ⟨?_, h.2⟩
          dsimp only
          unfold storeCov
          have := Map.length_insert_le (if 256 ≤ s.cov.length then [] else s.cov) kl.1
            (rasterize env (env.glyphs (face d) d.spacing) kl.1)
          split at this
          · rename_i hl; rw [if_pos hl]; simp only [List.length_nil] at this; omega
          · rename_i hl; rw [if_neg hl]; omega
      | none =>
        dsimp only
        cases blurHit d (d.y + (env.shape (face d)).baseline) (env.shape (face d)) s with
        | some o => exact h
        | none => exact hv _ _ _ _

end Verif.Paint
