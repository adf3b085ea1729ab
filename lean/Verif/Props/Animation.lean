import Verif.Lemmas.Animation
/-! # Animation tracks -/
namespace Verif.Props
open Verif
open Verif.Animation
open Verif.Spec (HexByte)
open Verif.Spec.Animation
open Verif.Spec.Transform (way PowerLaw)

/-- A track has its first value up to its start, and its last value from its end on, whatever the curve. -/
theorem C121_ends (powf : Rat → Rat → Rat) {t : Track} (hv : Fits t.value) (now : Nat) :
    (now ≤ t.timing.start → t.evaluate powf now = .ok (first t.value)) ∧
    (t.timing.start < now → t.timing.stop ≤ now → t.evaluate powf now = .ok (last t.value)) :=
  ⟨evaluate_before powf hv, evaluate_after powf hv⟩

example (powf : Rat → Rat → Rat) :
    (⟨"alpha".toList, ⟨100, 200, 2⟩, .integer 255 0, .smooth⟩ : Track).evaluate powf 200 = .ok (.integer 0) :=
  (C121_ends powf (t := ⟨"alpha".toList, ⟨100, 200, 2⟩, .integer 255 0, .smooth⟩)
    ⟨by decide, by decide, by decide, by decide, by decide, by decide⟩ 200).2 (by decide) (by decide)

/-- In between, the share of the way that has been covered never falls and stays between nothing and all of it; every part of the
value is that share of the way, whole numbers and colours being rounded.  Partial: `powf` is assumed to be a power (for
exponents that are not negative), and numbers are exact. -/
theorem C121_course_partial {powf : Rat → Rat → Rat} (hw : PowerLaw powf) {t : Track} (hv : Fits t.value) (ha : 0 ≤ t.timing.accel) :
    ∃ share : Nat → Rat, (∀ m n, m ≤ n → share m ≤ share n) ∧ (∀ n, 0 ≤ share n ∧ share n ≤ 1) ∧
      ∀ n, ∃ r, t.evaluate powf n = .ok r ∧ At (share n) t.value r ∧ Inside t.value r := by
  refine ⟨fun n => ease t.interp (progress powf t.timing n), ?_, ?_, ?_⟩
  · intro m n h
    exact ease_mono _ (progress_range hw ha m).1 (progress_mono hw ha h) (progress_range hw ha n).2
  · intro n
    have := progress_range hw ha n
    exact ease_range _ this.1 this.2
  · intro n
    have := progress_range hw ha n
    have he := ease_range t.interp this.1 this.2
    obtain ⟨r, hr, hat⟩ := interpolate_at hv he.1 he.2
    exact ⟨r, hr, hat, at_inside he.1 he.2 hat⟩

/-- Without acceleration and with the linear curve, the share is the time elapsed over the duration. -/
theorem C121_linear {powf : Rat → Rat → Rat} {t : Track} (hv : Fits t.value) (ha : t.timing.accel = 1) (hi : t.interp = .linear)
    {now : Nat} (h1 : t.timing.start ≤ now) (h2 : now ≤ t.timing.stop) (h3 : t.timing.start < t.timing.stop) :
    ∃ r, t.evaluate powf now = .ok r ∧
      At (((now - t.timing.start : Nat) : Rat) / ((t.timing.stop - t.timing.start : Nat) : Rat)) t.value r := by
  have hl := linear_range (a := now - t.timing.start) (b := t.timing.stop - t.timing.start) (by omega) (by omega)
  have hp : progress powf t.timing now = ((now - t.timing.start : Nat) : Rat) / ((t.timing.stop - t.timing.start : Nat) : Rat) := by
    unfold progress
    by_cases e1 : now ≤ t.timing.start
    · rw [if_pos e1, show now - t.timing.start = 0 by omega, Rat.div_def]
      exact (Rat.zero_mul _).symm
    rw [if_neg e1]
    by_cases e2 : t.timing.stop ≤ now
    · have hb : ((0 : Nat) : Rat) < ((t.timing.stop - t.timing.start : Nat) : Rat) := Rat.natCast_lt_natCast.2 (by omega)
      rw [if_pos e2, show now - t.timing.start = t.timing.stop - t.timing.start by omega, Rat.div_def,
        Rat.mul_inv_cancel _ (fun e => by rw [e] at hb; exact absurd hb (by decide))]
    rw [if_neg e2]
    dsimp only
    rw [if_pos (by rw [ha]; decide +kernel)]
  obtain ⟨r, hr, hat⟩ := interpolate_at hv hl.1 hl.2
  refine ⟨r, ?_, hat⟩
  unfold Track.evaluate
  rw [hp, hi]
  exact hr

example (powf : Rat → Rat → Rat) : (⟨"fs".toList, ⟨100, 200, 1⟩, .float 20 40, .linear⟩ : Track).evaluate powf 150 = .ok (.float 30) := by
  obtain ⟨r, hr, hat⟩ := C121_linear (powf := powf) (t := ⟨"fs".toList, ⟨100, 200, 1⟩, .float 20 40, .linear⟩) trivial rfl rfl
    (now := 150) (by decide) (by decide) (by decide)
  rw [hr]
  cases r <;> simp only [At] at hat
  rw [hat]
  decide +kernel

/-- Halfway, the two smooth curves are halfway as well, and they begin and end with the linear one. -/
theorem C121_curves (i : Interp) : ease i 0 = 0 ∧ ease i (1 / 2) = 1 / 2 ∧ ease i 1 = 1 := by
  cases i <;> decide +kernel

/-- Whole numbers far apart crash. -/
theorem C121_integer_violated (powf : Rat → Rat → Rat) (name : List Char) (tm : Timing) (i : Interp) (now : Nat) :
    (⟨name, tm, .integer (-2147483648) 1, i⟩ : Track).evaluate powf now = .panic := rfl

/-- At every moment, the state has exactly the properties for which there is a track, each with the value of the last such track. -/
theorem C121_state {powf : Rat → Rat → Rat} {tracks : List Track} {now : Nat} {s : State} (h : evaluate powf tracks now = .ok s)
    (name : List Char) :
    (∀ t, Governs tracks name t → ∃ r, t.evaluate powf now = .ok r ∧ getProperty s name = some r) ∧
    ((∀ t ∈ tracks, t.property ≠ name) → getProperty s name = none) := by
  constructor
  · rintro t ⟨pre, post, rfl, rfl, hn⟩
    exact from_governs h hn
  · intro hn
    rw [from_none h hn]
    rfl

/-- Evaluation does not fail when the ends of all tracks are representable.
Missing: whole-number tracks whose ends are 2^31 or more apart, for which evaluation overflows (`C121_integer_violated`), and
negative accelerations. -/
theorem C121_total_partial {powf : Rat → Rat → Rat} (hw : PowerLaw powf) {tracks : List Track}
    (h : ∀ t ∈ tracks, Fits t.value ∧ 0 ≤ t.timing.accel) (now : Nat) : ∃ s, evaluate powf tracks now = .ok s := by
  refine from_total _ (fun t ht => ?_)
  obtain ⟨hv, ha⟩ := h t ht
  obtain ⟨_, _, _, hc⟩ := C121_course_partial hw hv ha
  obtain ⟨r, hr, _⟩ := hc now
  exact ⟨r, hr⟩

example : PowerLaw (fun _ _ => (1 : Rat)) := ⟨fun _ _ _ _ _ => ⟨by decide, by decide⟩, fun _ _ _ _ _ _ _ => Rat.le_refl⟩

/-- What the accessors give: the number, or colour, of the last track for the property; an axis without a track is at 100. -/
theorem C121_accessors {powf : Rat → Rat → Rat} {tracks : List Track} {now : Nat} {s : State} (h : evaluate powf tracks now = .ok s) :
    (∀ t x, Governs tracks "fs".toList t → t.evaluate powf now = .ok (.float x) → fontSize s = some x) ∧
    (∀ t x, Governs tracks "frz".toList t → t.evaluate powf now = .ok (.float x) → rotation s = some x) ∧
    (∀ t c, Governs tracks "c".toList t → t.evaluate powf now = .ok (.color c) → color s = some c) ∧
    (∀ t u x y, Governs tracks "fscx".toList t → t.evaluate powf now = .ok (.float x) →
      Governs tracks "fscy".toList u → u.evaluate powf now = .ok (.float y) → scale s = some (x, y)) ∧
    (∀ t x, Governs tracks "fscx".toList t → t.evaluate powf now = .ok (.float x) →
      (∀ u ∈ tracks, u.property ≠ "fscy".toList) → scale s = some (x, 100)) ∧
    (∀ t y, Governs tracks "fscy".toList t → t.evaluate powf now = .ok (.float y) →
      (∀ u ∈ tracks, u.property ≠ "fscx".toList) → scale s = some (100, y)) := by
  have key : ∀ {name : List Char} {t : Track} {x : Result}, Governs tracks name t → t.evaluate powf now = .ok x →
      getProperty s name = some x := by
    intro name t x hg he
    obtain ⟨r, hr, hs⟩ := (C121_state h name).1 t hg
    rw [he] at hr
    injection hr with hr
    rw [hs, hr]
  refine ⟨?_, ?_, ?_, ?_, ?_, ?_⟩
  · intro t x hg he; unfold fontSize; rw [key hg he]; rfl
  · intro t x hg he; unfold rotation; rw [key hg he]; rfl
  · intro t x hg he; unfold color; rw [key hg he]; rfl
  · intro t u x y hg he hg' he'; unfold scale; rw [key hg he, key hg' he']; rfl
  · intro t x hg he hn; unfold scale; rw [key hg he, (C121_state h "fscy".toList).2 hn]; rfl
  · intro t x hg he hn; unfold scale; rw [key hg he, (C121_state h "fscx".toList).2 hn]; rfl

/-- Two animations of the size, one after the other.  While the first one runs, the state has the value at which the second one
begins: the first one is never seen. -/
theorem C121_sequence_violated (powf : Rat → Rat → Rat) :
    (evaluate powf [⟨"fs".toList, ⟨0, 100, 1⟩, .float 10 20, .linear⟩, ⟨"fs".toList, ⟨200, 300, 1⟩, .float 20 30, .linear⟩] 50) =
      .ok [("fs".toList, .float 20)] ∧
    (⟨"fs".toList, ⟨0, 100, 1⟩, .float 10 20, .linear⟩ : Track).evaluate powf 50 = .ok (.float 15) := by
  have h1 : (⟨"fs".toList, ⟨0, 100, 1⟩, .float 10 20, .linear⟩ : Track).evaluate powf 50 = .ok (.float 15) := by
    obtain ⟨r, hr, hat⟩ := C121_linear (powf := powf) (t := ⟨"fs".toList, ⟨0, 100, 1⟩, .float 10 20, .linear⟩) trivial rfl rfl
      (now := 50) (by decide) (by decide) (by decide)
    rw [hr]
    cases r <;> simp only [At] at hat
    rw [hat]
    decide +kernel
  have h2 : (⟨"fs".toList, ⟨200, 300, 1⟩, .float 20 30, .linear⟩ : Track).evaluate powf 50 = .ok (.float 20) :=
    (C121_ends powf (t := ⟨"fs".toList, ⟨200, 300, 1⟩, .float 20 30, .linear⟩) trivial 50).1 (by decide)
  refine ⟨?_, h1⟩
  unfold evaluate evaluateFrom
  rw [h1]
  dsimp only
  unfold evaluateFrom
  rw [h2]
  rfl

/-- The controller is active exactly while some animation is under way, and lists exactly those, in order. -/
theorem C121_active (tracks : List Track) (now : Nat) :
    (isActive tracks now = true ↔ ∃ t ∈ tracks, Running t.timing now) ∧
    (∀ t, t ∈ activeTracks tracks now ↔ t ∈ tracks ∧ Running t.timing now) ∧ (activeTracks tracks now).Sublist tracks := by
  refine ⟨?_, ?_, List.filter_sublist⟩
  · simp [isActive, Track.active, Running]
  · simp [activeTracks, Track.active, Running]

/-- While the controller is not active, nothing changes.  Partial: no animation ends before it begins. -/
theorem C121_quiet_partial (powf : Rat → Rat → Rat) {tracks : List Track}
    (h : ∀ t ∈ tracks, Fits t.value ∧ t.timing.start ≤ t.timing.stop) {m n : Nat} (hmn : m ≤ n)
    (hq : ∀ k, m ≤ k → k ≤ n → isActive tracks k = false) : evaluate powf tracks m = evaluate powf tracks n := by
  refine from_congr _ (fun t ht => ?_)
  obtain ⟨hv, hs⟩ := h t ht
  have off : ∀ k, m ≤ k → k ≤ n → ¬ Running t.timing k := by
    intro k h1 h2 hr
    have := (C121_active tracks k).1.2 ⟨t, ht, hr⟩
    rw [hq k h1 h2] at this
    cases this
  by_cases h1 : n < t.timing.start
  · rw [evaluate_before powf hv (by omega), evaluate_before powf hv (by omega)]
  by_cases h2 : t.timing.stop < m
  · rw [evaluate_after powf hv (by omega) (by omega), evaluate_after powf hv (by omega) (by omega)]
  by_cases h3 : m ≤ t.timing.start
  · exact absurd ⟨Nat.le_refl _, hs⟩ (off _ h3 (by omega))
  · exact absurd ⟨by omega, by omega⟩ (off m (Nat.le_refl _) hmn)

example (powf : Rat → Rat → Rat) :
    evaluate powf [⟨"fs".toList, ⟨10, 12, 1⟩, .float 10 20, .linear⟩] 20 = evaluate powf [⟨"fs".toList, ⟨10, 12, 1⟩, .float 10 20, .linear⟩] 90 :=
  C121_quiet_partial powf (by simp [Fits]) (by decide) (fun k h1 _ => by simp [isActive, Track.active]; omega)

/-- An animation that ends before it begins is never active and yet changes the state. -/
theorem C121_quiet_violated (powf : Rat → Rat → Rat) :
    let tracks : List Track := [⟨"fs".toList, ⟨50, 10, 1⟩, .float 10 20, .linear⟩]
    (∀ k, isActive tracks k = false) ∧ evaluate powf tracks 50 = .ok [("fs".toList, .float 10)] ∧
      evaluate powf tracks 51 = .ok [("fs".toList, .float 20)] := by
  refine ⟨fun k => by simp [isActive, Track.active]; omega, ?_, ?_⟩
  · unfold evaluate evaluateFrom
    rw [(C121_ends powf (t := ⟨"fs".toList, ⟨50, 10, 1⟩, .float 10 20, .linear⟩) trivial 50).1 (by decide)]
    rfl
  · unfold evaluate evaluateFrom
    rw [(C121_ends powf (t := ⟨"fs".toList, ⟨50, 10, 1⟩, .float 10 20, .linear⟩) trivial 51).2 (by decide) (by decide)]
    rfl

/-- Modifiers as documented, name and two values in parentheses, add one linear track each, in order, from the given moment of the
event, or its start, to the given moment, or its end.  Partial: the event does not end before it begins, and all moments fit. -/
theorem C121_tag_partial {f32 : List Char → Option Rat} (tracks : List Track) {items : List Item} (h : ∀ i ∈ items, i.Ok f32)
    (t1 t2 : Option Nat) (accel : Option Rat) {start stop : Nat} (hs : start ≤ stop) (h1 : start + t1.getD 0 < 2 ^ 32)
    (h2 : start + t2.getD (stop - start) < 2 ^ 32) :
    addFromTag f32 tracks ⟨t1, t2, accel, items.map Item.text⟩ start stop =
      .ok (tracks ++ items.map (fun i => ⟨i.property, ⟨start + t1.getD 0, (t2.map (start + ·)).getD stop, accel.getD 1⟩, i.value, .linear⟩)) := by
  unfold addFromTag
  dsimp only
  rw [if_neg (Nat.not_le.2 h1), if_neg (by omega), if_neg (Nat.not_le.2 h2), modifiers_ok _ _ h]
  have e : start + t2.getD (stop - start) = (t2.map (start + ·)).getD stop := by
    cases t2 with
    | none => simp only [Option.getD_none, Option.map_none]; omega
    | some t => rfl
  rw [e]

example : (Item.mk "\\c".toList "c".toList "&H0000FF&".toList "&HFF0000&".toList (.color ⟨255, 0, 0, 255⟩ ⟨0, 0, 255, 255⟩)).Ok
    (fun _ => none) := by
  refine ⟨by decide, ⟨by decide, by decide, by decide⟩, ⟨by decide, by decide, by decide⟩, ?_⟩
  refine .inr (.inl ⟨rfl, _, _, .inl ⟨"00".toList, "00".toList, "FF".toList, ?_, ?_, ?_, rfl, rfl⟩,
    .inl ⟨"FF".toList, "00".toList, "00".toList, ?_, ?_, ?_, rfl, rfl⟩, rfl⟩) <;>
  first
  | exact ⟨'0', '0', 0, 0, rfl, by decide, by decide, by decide⟩
  | exact ⟨'F', 'F', 15, 15, rfl, by decide, by decide, by decide⟩

/-- Whatever the modifiers: the tracks already there are kept, at most one is added for each modifier, and all of them with the same
timing. -/
theorem C121_tag_kept {f32 : List Char → Option Rat} {tracks out : List Track} {tag : Animation.Tag} {start stop : Nat}
    (h : addFromTag f32 tracks tag start stop = .ok out) :
    ∃ new, out = tracks ++ new ∧ new.length ≤ tag.modifiers.length ∧
      ∀ t ∈ new, t.timing = ⟨start + tag.t1.getD 0, start + tag.t2.getD (stop - start), tag.accel.getD 1⟩ := by
  unfold addFromTag at h
  dsimp only at h
  split at h
  · cases h
  split at h
  · cases h
  split at h
  · cases h
  exact modifiers_kept _ h

/-- A tag of an event that ends before it begins crashes, even when it gives both moments; so does a moment beyond 2³². -/
theorem C121_times_violated (f32 : List Char → Option Rat) (tracks : List Track) :
    addFromTag f32 tracks ⟨some 0, some 10, none, []⟩ 100 99 = .panic ∧
    addFromTag f32 tracks ⟨some 4294967295, some 10, none, []⟩ 1 99 = .panic := ⟨rfl, rfl⟩

/-- Rotation about the other axes, spacing and clipping are taken for rotation in the plane, size and colour. -/
theorem C121_names_violated {f32 : List Char → Option Rat} (h0 : f32 "0".toList = some 0) (h9 : f32 "9".toList = some 9) (tm : Timing) :
    parseModifier f32 "\\frx(0,9)".toList tm = .ok (some ⟨"frz".toList, tm, .float 0 9, .linear⟩) ∧
    parseModifier f32 "\\fry(0,9)".toList tm = .ok (some ⟨"frz".toList, tm, .float 0 9, .linear⟩) ∧
    parseModifier f32 "\\fsp(0,9)".toList tm = .ok (some ⟨"fs".toList, tm, .float 0 9, .linear⟩) ∧
    parseModifier f32 "\\clip(4,m 0 0 l 9 9)".toList tm =
      .ok (some ⟨"c".toList, tm, .color ⟨255, 255, 255, 255⟩ ⟨255, 255, 255, 255⟩, .linear⟩) := by
  refine ⟨?_, ?_, ?_, ?_⟩
  · show Outcome.ok (some (Track.mk _ tm (.float ((f32 "0".toList).getD 0) ((f32 "9".toList).getD 0)) _)) = _
    rw [h0, h9]; rfl
  · show Outcome.ok (some (Track.mk _ tm (.float ((f32 "0".toList).getD 0) ((f32 "9".toList).getD 0)) _)) = _
    rw [h0, h9]; rfl
  · show Outcome.ok (some (Track.mk _ tm (.float ((f32 "0".toList).getD 20) ((f32 "9".toList).getD 20)) _)) = _
    rw [h0, h9]; rfl
  · show Outcome.ok (some (Track.mk _ tm (.color ((parseColor "4".toList).getD _) ((parseColor "m 0 0 l 9 9".toList).getD _)) _)) = _
    rw [show parseColor "4".toList = none by decide, show parseColor "m 0 0 l 9 9".toList = none by decide]; rfl

/-- Modifiers as scripts write them, name and value, and with the single value in parentheses that the source speaks of, animate
nothing. -/
theorem C121_script_violated (f32 : List Char → Option Rat) (tm : Timing) :
    parseModifier f32 "\\fs40".toList tm = .ok none ∧ parseModifier f32 "\\fscx200".toList tm = .ok none ∧
    parseModifier f32 "\\c&H0000FF&".toList tm = .ok none ∧ parseModifier f32 "\\fs(40)".toList tm = .ok none ∧
    parseModifier f32 "\\pos(0,0,100,100)".toList tm = .ok none := ⟨rfl, rfl, rfl, rfl, rfl⟩

/-- A value that cannot be read, such as one with a blank in front, is replaced without notice; a closing parenthesis before the
opening one crashes. -/
theorem C121_values_violated {f32 : List Char → Option Rat} (h1 : f32 "10".toList = some 10) (h2 : f32 " 40".toList = none) (tm : Timing) :
    parseModifier f32 "\\fs(10, 40)".toList tm = .ok (some ⟨"fs".toList, tm, .float 10 20, .linear⟩) ∧
    parseModifier f32 "\\fs)(".toList tm = .panic := by
  refine ⟨?_, rfl⟩
  show Outcome.ok (some (Track.mk _ tm (.float ((f32 "10".toList).getD 20) ((f32 " 40".toList).getD 20)) _)) = _
  rw [h1, h2]; rfl

end Verif.Props
