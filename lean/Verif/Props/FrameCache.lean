import Verif.Spec.FrameCache
/-!
# C28, C61, C62 — frame cache, incremental rendering, independence of earlier scripts
-/
namespace Verif.Props
open Verif Verif.FrameCache Verif.Spec.FC

variable {S I : Type} (act : Script S → Nat → List Ev) (paint : I → Ctx → Script S → List Ev → Nat → I) (blank : I)

/-- What the cache holds is a correct frame for some time at which the keyed events were active. -/
def CacheOk (c : Ctx) (s : Script S) (r : Renderer I) : Prop :=
  ∀ k f, r.cache = some (k, f) → ∃ t, cacheKey (act s t) = some k ∧ act s t ≠ [] ∧
    f = draw paint blank (scriptCtx s c) s (act s t) t

theorem scriptCtx_idem (s : Script S) (c : Ctx) : scriptCtx s (scriptCtx s c) = scriptCtx s c := by
  unfold scriptCtx
  cases s.play <;> cases s.layout <;> rfl

theorem ctxFor_eq (s : Script S) (c : Ctx) : ctxFor s c = scriptCtx s c := by
  unfold ctxFor scriptCtx
  cases s.play <;> cases s.layout <;> rfl

theorem contains_iff (p s : Str) : contains p s = true ↔ ∃ a b, s = a ++ p ++ b := by
  induction s with
  | nil =>
    rw [contains, List.isPrefixOf_iff_prefix]
    constructor
    · rintro ⟨t, ht⟩; exact ⟨[], t, by simp [ht]⟩
    · rintro ⟨a, b, h⟩
      have h1 : a ++ p ++ b = [] := h.symm
      simp only [List.append_eq_nil_iff] at h1
      rw [h1.1.2]
      exact List.nil_prefix
  | cons c s ih =>
    rw [contains, Bool.or_eq_true, List.isPrefixOf_iff_prefix, ih]
    constructor
    · rintro (⟨t, ht⟩ | ⟨a, b, h⟩)
      · exact ⟨[], t, by simp [ht]⟩
      · exact ⟨c :: a, b, by simp [h]⟩
    · rintro ⟨a, b, h⟩
      cases a with
      | nil => exact .inl ⟨b, by simpa using h.symm⟩
      | cons x a =>
        simp only [List.cons_append, List.cons.injEq] at h
        exact .inr ⟨a, b, h.2⟩

/-- The animation test is exact. -/
theorem animated_iff (t : Str) : animated t = true ↔ TimeDependent t := by
  unfold animated TimeDependent
  simp only [Bool.or_eq_true, contains_iff, List.mem_cons, List.not_mem_nil, or_false, exists_eq_or_imp,
    exists_eq_left, or_assoc]

theorem cacheKey_some {evs : List Ev} {k : List (Nat × Nat)} (h : cacheKey evs = some k) :
    evs.any (fun e => animated e.text) = false ∧ k = evs.map (fun e => (e.ptr, byteLen e.text)) := by
  unfold cacheKey at h
  split at h
  · simp at h
  · next ha => simp only [Option.some.injEq] at h; exact ⟨by simpa using ha, h.symm⟩

theorem renderFrame_step (c : Ctx) (s : Script S) (hst : StaticWhenPlain paint blank s)
    (hid : TextIdentifies act s) (r : Renderer I) (hctx : scriptCtx s r.ctx = scriptCtx s c)
    (hok : CacheOk act paint blank c s r) (t : Nat) :
    (renderFrame act paint blank r s t).1 = direct act paint blank c s t ∧
    CacheOk act paint blank c s (renderFrame act paint blank r s t).2 ∧
    scriptCtx s (renderFrame act paint blank r s t).2.ctx = scriptCtx s c := by
  have hw : (scriptCtx s c).w = c.w ∧ (scriptCtx s c).h = c.h := by unfold scriptCtx; exact ⟨rfl, rfl⟩
  have hctx2 : scriptCtx s (scriptCtx s r.ctx) = scriptCtx s c := by rw [scriptCtx_idem, hctx]
  have hfresh : draw paint blank (scriptCtx s r.ctx) s (act s t) t =
      ⟨paint blank (scriptCtx s c) s (act s t) t, c.w, c.h, t⟩ := by
    unfold draw; rw [hctx, hw.1, hw.2]
  by_cases he : act s t = []
  · unfold renderFrame direct
    simp only [if_pos he]
    refine ⟨?_, hok, hctx2⟩
    rw [hctx, hw.1, hw.2]
  · unfold direct
    rw [if_neg he, ctxFor_eq]
    unfold renderFrame
    simp only [if_neg he, hfresh]
    have newOk : ∀ key, cacheKey (act s t) = some key → CacheOk act paint blank c s
        ⟨scriptCtx s r.ctx, some (key, ⟨paint blank (scriptCtx s c) s (act s t) t, c.w, c.h, t⟩)⟩ := by
      intro key hk k f h
      simp only [Option.some.injEq, Prod.mk.injEq] at h
      obtain ⟨rfl, rfl⟩ := h
      exact ⟨t, hk, he, by unfold draw; rw [hw.1, hw.2]⟩
    cases hk : cacheKey (act s t) with
    | none =>
      simp only
      exact ⟨trivial, by intro k f h; simp at h, hctx2⟩
    | some key =>
      cases hc : r.cache with
      | none => exact ⟨rfl, newOk key hk, hctx2⟩
      | some kf =>
        obtain ⟨k, f⟩ := kf
        simp only
        by_cases hkk : k = key
        · rw [if_pos hkk]
          refine ⟨?_, ?_, hctx2⟩
          · obtain ⟨t0, h1, h2, h3⟩ := hok k f hc
            obtain ⟨a1, a2⟩ := cacheKey_some hk
            obtain ⟨b1, b2⟩ := cacheKey_some h1
            have : act s t = act s t0 := hid t t0 (by rw [← a2, ← b2, hkk])
            rw [h3, this]
            simp only [draw, hw.1, hw.2]
            rw [hst _ _ t0 t (fun e he ht => by
              have := List.any_eq_false.1 b1 e he
              exact this ((animated_iff _).2 ht))]
          · intro k' f' h
            rw [← hc] at h
            exact hok k' f' h
        · rw [if_neg hkk]
          exact ⟨rfl, newOk key hk, hctx2⟩

/-- Frames returned by rendering at a list of times. -/
def renders (s : Script S) : Renderer I → List Nat → List (Frame I)
  | _, [] => []
  | r, t :: l => (renderFrame act paint blank r s t).1 :: renders s (renderFrame act paint blank r s t).2 l

/-- **C28, partial.** Rendering one script at any sequence of times with an unchanged context gives exactly
the frames of a renderer without cache, provided events without animation tags do not change over time and
the text's place identifies an event.  Missing: context changes and other scripts in between, see
`C28_context_change_violated` and `C28_other_script_violated`. -/
theorem C28_transparent_partial (c : Ctx) (s : Script S) (hst : StaticWhenPlain paint blank s)
    (hid : TextIdentifies act s) (ts : List Nat) :
    renders act paint blank s ⟨c, none⟩ ts = ts.map (direct act paint blank c s) := by
  suffices ∀ (ts : List Nat) (r : Renderer I), scriptCtx s r.ctx = scriptCtx s c →
      CacheOk act paint blank c s r → renders act paint blank s r ts = ts.map (direct act paint blank c s) from
    this ts ⟨c, none⟩ rfl (by intro k f h; simp at h)
  intro ts
  induction ts with
  | nil => intro r _ _; rfl
  | cons t l ih =>
    intro r hctx hok
    obtain ⟨h1, h2, h3⟩ := renderFrame_step act paint blank c s hst hid r hctx hok t
    simp only [renders, List.map_cons]
    rw [h1, ih _ h3 h2]

/-- A concrete instance: an image is the list of texts painted with the context width. -/
def demoPaint (img : List (Nat × Str)) (c : Ctx) (_ : Script (List Ev)) (evs : List Ev) (_ : Nat) : List (Nat × Str) :=
  img ++ evs.map (fun e => (c.w, e.text))
def demoAct (s : Script (List Ev)) (t : Nat) : List Ev := s.rest.filter (fun e => activeAt e t)
def demoScript : Script (List Ev) := ⟨none, none, [⟨100, ['a'], 0, 50⟩, ⟨200, ['b'], 20, 80⟩]⟩

example : StaticWhenPlain demoPaint [] demoScript := fun _ _ _ _ _ => rfl
example : TextIdentifies demoAct demoScript := by
  have pa : ((⟨100, ['a'], 0, 50⟩ : Ev).ptr, byteLen (⟨100, ['a'], 0, 50⟩ : Ev).text) = (100, 1) := by decide
  have pb : ((⟨200, ['b'], 20, 80⟩ : Ev).ptr, byteLen (⟨200, ['b'], 20, 80⟩ : Ev).text) = (200, 1) := by decide
  intro t t' h
  unfold demoAct demoScript at *
  simp only [List.filter_cons, List.filter_nil] at *
  split at h <;> split at h <;> split at h <;> split at h <;> simp_all

/-- **C28, disagreement.** After the context is replaced (new output size) the cached frame of the old size
is still returned. -/
theorem C28_context_change_violated :
    ¬ ∀ (c c' : Ctx) (s : Script (List Ev)) (t t' : Nat), StaticWhenPlain demoPaint [] s → TextIdentifies demoAct s →
        (renderFrame demoAct demoPaint [] (setContext (renderFrame demoAct demoPaint [] ⟨c, none⟩ s t).2 c') s t').1 =
          direct demoAct demoPaint [] c' s t' := by
  intro h
  let s : Script (List Ev) := ⟨none, none, [⟨100, ['a'], 0, 50⟩]⟩
  have := h ⟨640, 480, (640, 480), (640, 480)⟩ ⟨1920, 1080, (1920, 1080), (1920, 1080)⟩ s 1 2
    (fun _ _ _ _ _ => rfl) (by
      intro t t' h
      simp only [demoAct, s, List.filter_cons, List.filter_nil] at *
      split at h <;> split at h <;> simp_all)
  revert this
  decide

/-- **C28, disagreement.** Another script whose text happens to lie at the same address with the same length
gets the frame of the first one. -/
theorem C28_other_script_violated :
    ¬ ∀ (c : Ctx) (s s' : Script (List Ev)) (t : Nat),
        (renderFrame demoAct demoPaint [] (renderFrame demoAct demoPaint [] ⟨c, none⟩ s t).2 s' t).1 =
          direct demoAct demoPaint [] c s' t := by
  intro h
  have := h ⟨640, 480, (640, 480), (640, 480)⟩ ⟨none, none, [⟨100, ['a'], 0, 50⟩]⟩
    ⟨none, none, [⟨100, ['b'], 0, 50⟩]⟩ 1
  revert this
  decide

/-- **C62, disagreement.** The frame of a script depends on the scripts rendered before: a script that gives
no resolution of its own is drawn with the resolution left behind by the previous one. -/
theorem C62_independent_violated :
    ¬ ∀ (paint : Nat × Nat → Ctx → Script Nat → List Ev → Nat → Nat × Nat) (act : Script Nat → Nat → List Ev)
        (c : Ctx) (s s' : Script Nat) (t : Nat), (∀ t, cacheKey (act s t) = none) →
        (renderFrame act paint (0, 0) (renderFrame act paint (0, 0) ⟨c, none⟩ s t).2 s' t).1 =
          (renderFrame act paint (0, 0) ⟨c, none⟩ s' t).1 := by
  intro h
  have := h (fun _ c _ _ _ => c.play) (fun s _ => if s.rest = 0 then [⟨1, "\\k1".toList, 0, 9⟩] else [⟨7, ['x'], 0, 9⟩])
    ⟨640, 480, (640, 480), (640, 480)⟩ ⟨some (1920, 1080), none, 0⟩ ⟨none, none, 1⟩ 1
    (by intro t; decide)
  revert this
  decide

/-- **C62, partial.** A script that gives both resolutions is drawn with its own, whatever was rendered
before: its effective context depends only on the output size.
Missing: scripts that lack a resolution and take over that of the script before (`C62_independent_violated`). -/
theorem C62_own_resolution_partial (c : Ctx) (s s' : Script S) (hp : s'.play.isSome) (hl : s'.layout.isSome) :
    scriptCtx s' (scriptCtx s c) = scriptCtx s' c := by
  unfold scriptCtx
  cases h1 : s'.play with
  | none => rw [h1] at hp; simp at hp
  | some p =>
    cases h2 : s'.layout with
    | none => rw [h2] at hl; simp at hl
    | some l => rfl

example : (⟨some (1920, 1080), some (640, 480), ()⟩ : Script Unit).play.isSome := rfl

/-- **C61, disagreement.** Incremental rendering keeps a subtitle on screen after it has ended: only events
active now are examined, so an event that ended is not noticed. -/
theorem C61_incremental_violated :
    ¬ ∀ (c : Ctx) (s : Script (List Ev)) (t t' : Nat),
        renderIncremental demoAct demoPaint ⟨c, none⟩ s t' (direct demoAct demoPaint [] c s t) =
          direct demoAct demoPaint [] c s t' := by
  intro h
  have := h ⟨640, 480, (640, 480), (640, 480)⟩ ⟨none, none, [⟨100, ['a'], 0, 50⟩]⟩ 10 60
  revert this
  decide

/-- **C61, disagreement.** Even when a change is noticed, the new events are painted over the previous
frame, so an event that ended at the same time stays visible. -/
theorem C61_paints_over_violated :
    ¬ ∀ (c : Ctx) (s : Script (List Ev)) (t t' : Nat),
        (∃ e ∈ demoAct s t', t < e.start ∧ e.start ≤ t' ∧ t' < e.stop) →
        renderIncremental demoAct demoPaint ⟨c, none⟩ s t' (direct demoAct demoPaint [] c s t) =
          direct demoAct demoPaint [] c s t' := by
  intro h
  have := h ⟨640, 480, (640, 480), (640, 480)⟩ ⟨none, none, [⟨100, ['a'], 0, 50⟩, ⟨200, ['b'], 50, 90⟩]⟩ 10 60
    ⟨⟨200, ['b'], 50, 90⟩, by decide, by decide⟩
  revert this
  decide

/-- **C61 (what incremental rendering does).** If among the events active now there is one that is shown at one of the two times and
not at the other (from its start on, until before its end), the events active now are painted over the previous picture; otherwise
the previous frame is returned as it is, its time included. -/
theorem C61_repaint (r : Renderer I) (s : Script S) (t : Nat) (prev : Frame I) :
    ((∃ e ∈ act s t, ¬ ((e.start ≤ prev.time ∧ prev.time < e.stop) ↔ (e.start ≤ t ∧ t < e.stop))) →
      renderIncremental act paint r s t prev = ⟨paint prev.img r.ctx s (act s t) t, r.ctx.w, r.ctx.h, t⟩) ∧
    ((∀ e ∈ act s t, (e.start ≤ prev.time ∧ prev.time < e.stop) ↔ (e.start ≤ t ∧ t < e.stop)) →
      renderIncremental act paint r s t prev = prev) := by
  have key : ∀ (e : Ev) (u : Nat), activeAt e u = true ↔ e.start ≤ u ∧ u < e.stop := by
    intro e u
    simp [activeAt]
  have ne : ∀ e : Ev, (activeAt e prev.time != activeAt e t) = true ↔
      ¬ ((e.start ≤ prev.time ∧ prev.time < e.stop) ↔ (e.start ≤ t ∧ t < e.stop)) := by
    intro e
    rw [← key, ← key]
    cases activeAt e prev.time <;> cases activeAt e t <;> simp
  unfold renderIncremental
  constructor
  · rintro ⟨e, he, h⟩
    have : (act s t).any (fun e => activeAt e prev.time != activeAt e t) = true := List.any_eq_true.mpr ⟨e, he, (ne e).mpr h⟩
    simp only [this, if_true]
  · intro h
    have : (act s t).any (fun e => activeAt e prev.time != activeAt e t) = false := by
      rw [List.any_eq_false]
      intro e he hn
      exact (ne e).mp hn (h e he)
    simp only [this, Bool.false_eq_true, if_false]

/-- **C61, partial.** If the same events are active at both times and none is animated, the incremental
frame has the pixels of a full rendering.  Missing: every change of the set of active events. -/
theorem C61_unchanged_partial (c : Ctx) (s : Script S) (hst : StaticWhenPlain paint blank s) (t t' : Nat)
    (hsame : act s t = act s t') (hplain : ∀ e ∈ act s t, ¬ TimeDependent e.text)
    (hact : ∀ u, ∀ e ∈ act s u, e.start ≤ u ∧ u < e.stop) :
    (renderIncremental act paint ⟨c, none⟩ s t' (direct act paint blank c s t)).img =
      (direct act paint blank c s t').img := by
  have hno : (act s t').any (fun e => activeAt e t != activeAt e t') = false := by
    rw [List.any_eq_false]
    intro e he
    have h1 := hact t' e he
    have h2 := hact t e (by rw [hsame]; exact he)
    simp [activeAt, h1, h2]
  unfold renderIncremental direct
  simp only [hno, Bool.false_eq_true, if_false]
  rw [hsame] at hplain ⊢
  split
  · rfl
  · exact hst _ _ t t' hplain

example : demoAct demoScript 25 = demoAct demoScript 45 := by decide

end Verif.Props
