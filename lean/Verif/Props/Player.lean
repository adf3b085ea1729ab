import Verif.Lemmas.Player
import Verif.Props.Update
/-! Properties C136 and C137: where the debug player is, and what it shows. -/
namespace Verif.Props.Player
open Verif
open Verif.Parser
open Verif.Player
open Verif.Spec.Player

variable {F : Type}

/-! ## C136: the position -/

/-- **C136 (playing).** Playing, or a jump while playing, begins at a reading of the clock.  However often or seldom the
player is updated from then on, its position is where the stretch began plus the whole milliseconds gone by at the speed set,
as long as that is short of the end; and it goes on playing. -/
theorem C136_playing (render : Str → Nat → Option F) (p : Player F) (hf : p.fin < 2 ^ 32) {c : Cmd} (hc : Begins p c) {t0 : Rat}
    (hr : (step render p c t0).2 = .done) (ts : List Rat) (t : Rat) :
    let q := (step render p c t0).1
    (∀ u ∈ ts ++ [t], q.time + ran p.speed t0 u < p.fin) →
    (run render ((ts ++ [t]).map (fun u => (Cmd.update, u))) q).time = q.time + ran p.speed t0 t ∧
    (run render ((ts ++ [t]).map (fun u => (Cmd.update, u))) q).playing = true := by
  intro q ht
  obtain ⟨h1, h2, h3, h4⟩ := begins_runs (render := render) hc hr
  obtain ⟨a, b, -⟩ := updates_on (render := render) (ts := ts ++ [t]) (p := q) h1 (by rw [h3]; exact hf)
    (by intro u hu; show _ + ran q.speed t0 u < q.fin; rw [h2, h3]; exact ht u hu)
  refine ⟨?_, b.1⟩
  rw [a t (by simp), h2]

/-- **C136 (the end).** An update that finds the end reached stops at the end, without a frame; with looping it begins again
at 0, at the reading of that update. -/
theorem C136_end (render : Str → Nat → Option F) (p : Player F) (hf : p.fin < 2 ^ 32) {c : Cmd} (hc : Begins p c) {t0 : Rat}
    (hr : (step render p c t0).2 = .done) (ts : List Rat) (t : Rat) :
    let q := (step render p c t0).1
    (∀ u ∈ ts, q.time + ran p.speed t0 u < p.fin) → p.fin ≤ q.time + ran p.speed t0 t → q.time + ran p.speed t0 t < 2 ^ 32 →
    let r := run render (ts.map (fun u => (Cmd.update, u))) q
    (p.looping = false → (step render r .update t).2 = .done ∧ (step render r .update t).1.time = p.fin ∧ (step render r .update t).1.playing = false) ∧
    (p.looping = true → (step render r .update t).1.time = 0 ∧ ∀ (us : List Rat) (u : Rat), (∀ x ∈ us ++ [u], ran p.speed t x < p.fin) →
      (run render ((us ++ [u]).map (fun u => (Cmd.update, u))) (step render r .update t).1).time = ran p.speed t u) := by
  intro q ht h5 h6 r
  obtain ⟨h1, h2, h3, h4⟩ := begins_runs (render := render) hc hr
  obtain ⟨-, b, b1, b2, b3⟩ := updates_on (render := render) (ts := ts) (p := q) h1 (by rw [h3]; exact hf)
    (by intro u hu; show _ + ran q.speed t0 u < q.fin; rw [h2, h3]; exact ht u hu)
  have hsp : r.speed = p.speed := b1.trans h2
  have hfi : r.fin = p.fin := b2.trans h3
  have hlo : r.looping = p.looping := b3.trans h4
  have hu : step render r .update t = arrive render r (q.time + ran p.speed t0 t) t := by
    have := update_runs (render := render) (t := t) b (by rw [hsp]; exact h6)
    rw [hsp] at this
    exact this
  rw [hu]
  unfold arrive
  rw [if_pos (show q.time + ran p.speed t0 t ≥ r.fin by rw [hfi]; exact h5)]
  constructor
  · intro hl
    rw [if_neg (by rw [hlo, hl]; decide)]
    exact ⟨rfl, hfi, rfl⟩
  · intro hl
    rw [if_pos (by rw [hlo, hl])]
    obtain ⟨x, hx⟩ := current_alike (render := render) { r with time := 0, since := some t, origin := 0, acc := 0 }
    have e : (reply (current render { r with time := 0, since := some t, origin := 0, acc := 0 })).1 = { r with time := 0, since := some t, origin := 0, acc := 0, cache := x } := hx
    rw [e]
    refine ⟨rfl, ?_⟩
    intro us u hus
    have hR : Runs 0 t ({ r with time := 0, since := some t, origin := 0, acc := 0, cache := x } : Player F) := ⟨b.1, rfl, rfl, rfl⟩
    obtain ⟨g, -⟩ := updates_on (render := render) (ts := us ++ [u]) hR (by show r.fin < _; rw [hfi]; exact hf)
      (by intro y hy; show 0 + ran r.speed t y < r.fin; rw [hsp, hfi, Nat.zero_add]; exact hus y hy)
    have := g u (by simp)
    rw [this]
    show 0 + ran r.speed t u = _
    rw [hsp, Nat.zero_add]

/-- A player with a script of ten seconds. -/
def tenSec : Player Nat := { new Nat with script := some "x".toList, fin := 10000 }

example : (run (fun _ t => some t) [(.play, 5), (.update, 45), (.update, 1005)] tenSec).time = 1000 ∧
    (run (fun _ t => some t) [(.play, 5), (.update, 1005)] tenSec).time = 1000 ∧
    (run (fun _ t => some t) [(.speed 2, 0), (.play, 5), (.seek 3000, 100), (.update, 1100)] tenSec).time = 5000 ∧
    (run (fun _ t => some t) [(.play, 5), (.update, 45), (.update, 20005)] tenSec).playing = false ∧
    (run (fun _ t => some t) [(.setLoop true, 0), (.play, 5), (.update, 20005), (.update, 20305)] tenSec).time = 300 := by decide +kernel

/-- **C136 (jumps).** Seeking goes to the time asked for or the end; a step goes forty milliseconds on, at most to the end,
or back, at least to 0; stopping goes to 0; nothing of this starts or (but for stopping) ends playing. -/
theorem C136_jumps (render : Str → Nat → Option F) (p : Player F) (now : Rat) :
    (∀ t, (step render p (.seek t) now).1.time = min t p.fin ∧ (step render p (.seek t) now).1.playing = p.playing) ∧
    (p.time + 40 < 2 ^ 32 → (step render p .forward now).1.time = min (p.time + 40) p.fin ∧ (step render p .forward now).1.playing = p.playing) ∧
    ((step render p .backward now).1.time = p.time - 40 ∧ (step render p .backward now).1.playing = p.playing) ∧
    ((step render p .stop now).1.time = 0 ∧ (step render p .stop now).1.playing = false) := by
  have hrs : ∀ q : Player F, (restart q now).time = q.time ∧ (restart q now).playing = q.playing := by
    intro q; unfold restart; by_cases hq : q.playing = true
    · rw [if_pos hq]; exact ⟨rfl, rfl⟩
    · rw [if_neg hq]; exact ⟨rfl, rfl⟩
  refine ⟨fun t => hrs _, ?_, hrs _, rfl, rfl⟩
  intro h
  unfold step forward
  simp only
  rw [if_pos h]
  exact hrs _

/-- **C136 (bounds), partial.** Whatever is done with a player whose position is not past the end of its script, the position
never gets past the end, and the end never changes.

Missing: loading a script (which may leave the position past the end, `C136_reload_violated`). -/
theorem C136_bounds_partial (render : Str → Nat → Option F) : ∀ (l : List (Cmd × Rat)) (p : Player F), (∀ c ∈ l, ∀ src, c.1 ≠ .load src) →
    p.time ≤ p.fin → (run render l p).time ≤ p.fin ∧ (run render l p).fin = p.fin
  | [], _, _, h => ⟨h, rfl⟩
  | (c, now) :: l, p, hl, h => by
    obtain ⟨a, b⟩ := step_bounds (render := render) (now := now) (hl (c, now) (by simp)) h
    have := C136_bounds_partial render l (step render p c now).1 (fun x hx => hl x (by simp [hx])) a
    rw [b] at this
    exact this

/-- A script of a hundred seconds and one of two. -/
def long : Str := "[Events]\nDialogue: 0,0:00:00.00,0:01:40.00,D,,0,0,0,,a\nDialogue: 0,0:00:00.00,0:00:40.00,D,,0,0,0,,b\n".toList
def short : Str := "[Events]\nDialogue: 0,0:00:00.00,0:00:02.00,D,,0,0,0,,a\n".toList

/-- **C136 (another script), violated.** After another script is loaded the position may be past the end of it. -/
theorem C136_reload_violated : (run (fun _ t => some t) [(.load long, 0), (.seek 90000, 0), (.load short, 0)] (new Nat)).time = 90000 ∧
    (run (fun _ t => some t) [(.load long, 0), (.seek 90000, 0), (.load short, 0)] (new Nat)).fin = 2000 := by decide +kernel

/-- **C136 (speed).** From the start on the speed is always between a tenth and ten; setting it gives the value asked for within
these bounds. -/
theorem C136_speed (render : Str → Nat → Option F) (l : List (Cmd × Rat)) :
    (1 / 10 ≤ (run render l (new F)).speed ∧ (run render l (new F)).speed ≤ 10) ∧
    ∀ (p : Player F) (v now : Rat), 1 / 10 ≤ v → v ≤ 10 → (step render p (.speed v) now).1.speed = v := by
  constructor
  · have key : ∀ (l : List (Cmd × Rat)) (p : Player F), (1 / 10 ≤ p.speed ∧ p.speed ≤ 10) → 1 / 10 ≤ (run render l p).speed ∧ (run render l p).speed ≤ 10 := by
      intro l
      induction l with
      | nil => intro p h; exact h
      | cons x l ih =>
        obtain ⟨c, now⟩ := x
        intro p h
        refine ih _ ?_
        have hrs : ∀ q : Player F, (restart q now).speed = q.speed := by
          intro q; unfold restart; by_cases hq : q.playing = true
          · rw [if_pos hq]
          · rw [if_neg hq]
        have hcu : ∀ q : Player F, (reply (current render q)).1.speed = q.speed := by
          intro q
          obtain ⟨x, hx⟩ := current_alike (render := render) q
          show (current render q).1.speed = _
          rw [hx]
        cases c with
        | load src =>
          unfold step load
          simp only
          cases (parse src).bind duration <;> exact h
        | seek t => show _ ≤ (restart _ now).speed ∧ (restart _ now).speed ≤ _; rw [hrs]; exact h
        | backward => show _ ≤ (restart _ now).speed ∧ (restart _ now).speed ≤ _; rw [hrs]; exact h
        | forward =>
          unfold step forward
          simp only
          by_cases hb : p.time + 40 < 2 ^ 32
          · rw [if_pos hb]; show _ ≤ (restart _ now).speed ∧ (restart _ now).speed ≤ _; rw [hrs]; exact h
          · rw [if_neg hb]; exact h
        | speed v => exact setSpeed_range _ _ _
        | faster => exact setSpeed_range _ _ _
        | slower => exact setSpeed_range _ _ _
        | «show» => show _ ≤ (reply _).1.speed ∧ (reply _).1.speed ≤ _; rw [hcu]; exact h
        | update =>
          show _ ≤ (update render p now).1.speed ∧ (update render p now).1.speed ≤ _
          unfold update
          by_cases hp : p.playing = true
          · rw [if_pos hp]
            cases p.since with
            | none => simp only; rw [hcu]; exact h
            | some s =>
              simp only
              by_cases hb : p.origin + toU32 (elapsed p s now + p.acc) < 2 ^ 32
              · rw [if_pos hb]
                unfold arrive
                by_cases ht : p.origin + toU32 (elapsed p s now + p.acc) ≥ p.fin
                · rw [if_pos ht]
                  by_cases hl : p.looping = true
                  · rw [if_pos hl, hcu]; exact h
                  · rw [if_neg hl]; exact h
                · rw [if_neg ht, hcu]; exact h
              · rw [if_neg hb]; exact h
          · rw [if_neg hp]; exact h
        | _ => exact h
    exact key l (new F) (by exact (by decide +kernel : (1 / 10 : Rat) ≤ 1 ∧ (1 : Rat) ≤ 10))
  · intro p v now h1 h2
    have e : max (1 / 10) (min v 10) = v := by
      rw [Rat.min_def, if_pos h2, Rat.max_def, if_pos h1]
    unfold step setSpeed
    simp only
    by_cases hq : p.playing = true
    · rw [if_pos hq]; cases p.since <;> exact e
    · rw [if_neg hq]; exact e

/-- **C136 (faster and slower).** One step faster is half as fast again and one step slower undoes it, within the bounds: from a speed
of at most 20/3 a step up and a step down lead back to it. -/
theorem C136_steps (render : Str → Nat → Option F) (p : Player F) (now now' : Rat) (h1 : 1 / 10 ≤ p.speed) :
    (p.speed * 3 ≤ 20 → (step render p .faster now).1.speed = p.speed * 3 / 2 ∧
      (step render (step render p .faster now).1 .slower now').1.speed = p.speed) ∧
    (20 ≤ p.speed * 3 → (step render p .faster now).1.speed = 10) ∧
    (p.speed * 20 ≤ 3 → (step render p .slower now).1.speed = 1 / 10) := by
  have hs : ∀ (q : Player F) (v n : Rat), (setSpeed q v n).speed = max (1 / 10) (min v 10) := by
    intro q v n
    unfold setSpeed
    split
    · cases q.since <;> rfl
    · rfl
  have e1 : (step render p .faster now).1.speed = max (1 / 10) (min (min (p.speed * (3 / 2)) 10) 10) := hs _ _ _
  have e2 : ∀ q : Player F, (step render q .slower now').1.speed = max (1 / 10) (min (max (q.speed / (3 / 2)) (1 / 10)) 10) := fun q => hs _ _ _
  have e3 : (step render p .slower now).1.speed = max (1 / 10) (min (max (p.speed / (3 / 2)) (1 / 10)) 10) := hs _ _ _
  refine ⟨?_, ?_, ?_⟩
  · intro h
    have e : (step render p .faster now).1.speed = p.speed * 3 / 2 := by
      rw [e1]; simp only [Rat.min_def, Rat.max_def]; grind
    refine ⟨e, ?_⟩
    rw [e2, e]; simp only [Rat.min_def, Rat.max_def]; grind
  · intro h
    rw [e1]; simp only [Rat.min_def, Rat.max_def]; grind
  · intro h
    rw [e3]; simp only [Rat.min_def, Rat.max_def]; grind

example : (step (fun _ t => some t) (new Nat) .faster 0).1.speed = 3 / 2 := by decide +kernel

/-- **C136 (changing speed while playing), violated.** A change of the speed while playing makes the position jump ahead by
the time played so far: after ten seconds at speed 1 and an update, setting the speed (even to 1 again) moves from 10 to 20
seconds. -/
theorem C136_speed_violated :
    (run (fun _ t => some t) [(.load long, 0), (.play, 0), (.update, 10000)] (new Nat)).time = 10000 ∧
    (run (fun _ t => some t) [(.load long, 0), (.play, 0), (.update, 10000), (.speed 1, 10000), (.update, 10000)] (new Nat)).time = 20000 := by
  decide +kernel

/-- **C136 (pausing), violated.** What was played since the last update is lost by a pause: after five seconds of playing,
a pause and playing on, the position is 0. -/
theorem C136_pause_violated :
    (run (fun _ t => some t) [(.load long, 0), (.play, 0), (.pause, 5000), (.play, 6000), (.update, 6000)] (new Nat)).time = 0 := by
  decide +kernel

/-- **C136 (pausing), partial.** If the player is updated at the moment it is paused, playing on later goes on from there.

Missing: a pause some time after the last update (`C136_pause_violated`). -/
theorem C136_pause_partial (render : Str → Nat → Option F) (p : Player F) (hf : p.fin < 2 ^ 32) (t0 t1 t2 t3 : Rat)
    (h1 : p.time + ran p.speed t0 t1 < p.fin) (h2 : p.time + ran p.speed t0 t1 + ran p.speed t2 t3 < p.fin) :
    (run render [(.play, t0), (.update, t1), (.pause, t1), (.play, t2), (.update, t3)] p).time =
      p.time + ran p.speed t0 t1 + ran p.speed t2 t3 := by
  have hR : Runs p.time t0 (play p t0) := ⟨rfl, rfl, rfl, rfl⟩
  obtain ⟨a1, a2, a3, a4, -⟩ := update_on (render := render) (t := t1) hR hf h1
  have hR2 : Runs (p.time + ran p.speed t0 t1) t2 (play (pause (update render (play p t0) t1).1 t1) t2) := ⟨rfl, rfl, a1, rfl⟩
  obtain ⟨b1, -⟩ := update_on (render := render) (t := t3) hR2 (by show (update render (play p t0) t1).1.fin < _; rw [a4]; exact hf)
    (by show _ + ran (update render (play p t0) t1).1.speed t2 t3 < (update render (play p t0) t1).1.fin; rw [a3, a4]; exact h2)
  show (update render (play (pause (update render (play p t0) t1).1 t1) t2) t3).1.time = _
  rw [b1]
  show _ + ran (update render (play p t0) t1).1.speed t2 t3 = _
  rw [a3]
  rfl

/-- **C136 (long gaps), violated.** An update so late that the position does not fit in 32 bits panics instead of ending. -/
theorem C136_gap_violated :
    (step (fun _ t => some t) (run (fun _ t => some t) [(.load short, 0), (.seek 1, 0), (.play, 0)] (new Nat)) .update 4294967296).2 = .crashed := by
  decide +kernel

/-- **C136 (duration), partial.** The end of a loaded script is the greatest end of an event, over all sections of events and
all events whose end can be read; ten seconds if there is none or it is 0.

Missing: ends that do not fit in 32 bits as milliseconds (a panic). -/
theorem C136_duration_partial (render : Str → Nat → Option F) (p : Player F) {src : Str} {s : Script} (hs : parse src = some s) {vs : List Nat} {g : Nat}
    (h : Ends (endTexts s) vs) (hb : ∀ v ∈ vs, v * 10 < 2 ^ 32) (hg : Greatest vs g) (now : Rat) :
    (step render p (.load src) now).2 = .done ∧ (step render p (.load src) now).1.fin = (if 0 < g then 10 * g else 10000) ∧
    (step render p (.load src) now).1.script = some src := by
  unfold step load
  simp only
  rw [hs, Option.bind_some, duration_spec h hb hg]
  exact ⟨rfl, rfl, rfl⟩

example : (parse long).map endTexts = some ["0:01:40.00".toList, "0:00:40.00".toList] ∧ Greatest [10000, 4000] 10000 ∧
    (run (fun _ t => some t) [(.load long, 0)] (new Nat)).fin = 100000 :=
  ⟨by decide +kernel, ⟨by decide, by decide⟩, by decide +kernel⟩

/-! ## C137: the frames -/

/-- **C137 (frames), partial.** Whatever was done before: a frame shown carries the position and its number, and is the
rendering of the script loaded last at some time of the same forty milliseconds; at exactly the position if the cache is off.

Missing: with the cache on, the rendering at exactly the position (`C137_frame_violated`). -/
theorem C137_frame_partial (render : Str → Nat → Option F) (l : List (Cmd × Rat)) (c : Cmd) (now : Rat) {s : Shown F}
    (h : (step render (run render l (new F)) c now).2 = .frame s) :
    let q := (step render (run render l (new F)) c now).1
    s.timestamp = q.time ∧ s.number = q.time / 40 ∧ ∃ src t, q.script = some src ∧ SameSlot t q.time ∧ (q.cacheOn = false → t = q.time) ∧
      render src (t / 10) = some s.frame :=
  (step_good (run_good l new_good) c now).2 s h

example : (step (fun _ t => some t) (run (fun _ t => some t) [(.load long, 0), (.seek 95, 0)] (new Nat)) .show 0).2 = .frame ⟨9, 95, 2⟩ ∧
    (step (fun _ t => some t) (run (fun _ t => some t) [(.load long, 0), (.cache false, 0), (.seek 95, 0), (.show, 0), (.seek 119, 0)] (new Nat)) .show 0).2 =
      .frame ⟨11, 119, 2⟩ := by decide +kernel

/-- **C137 (frames), violated.** With the cache on, the frame shown at 110 ms is the one rendered at 95 ms. -/
theorem C137_frame_violated :
    (step (fun _ t => some t) (run (fun _ t => some t) [(.load long, 0), (.seek 95, 0), (.show, 0), (.seek 110, 0)] (new Nat)) .show 0).2 = .frame ⟨9, 110, 2⟩ := by
  decide +kernel

/-- **C137 (asking again).** Whatever was done before: what is shown when nothing has changed since the last frame is that
frame again. -/
theorem C137_again (render : Str → Nat → Option F) (l : List (Cmd × Rat)) (n n' : Rat) {s : Shown F}
    (h : (step render (run render l (new F)) .show n).2 = .frame s) :
    (step render (step render (run render l (new F)) .show n).1 .show n').2 = .frame s := by
  generalize hp : run render l (new F) = p at *
  have hg : Good render p := by rw [← hp]; exact run_good l new_good
  clear hp
  show (reply (current render (current render p).1)).2 = _
  have h' : (reply (current render p)).2 = .frame s := h
  unfold current at *
  cases hc : cached p with
  | some f =>
    rw [hc] at h'
    simp only
    rw [hc]
    exact h'
  | none =>
    rw [hc] at h'
    simp only at h' ⊢
    unfold fresh at *
    cases hb : p.script.bind (fun src => render src (p.time / 10)) with
    | none => rw [hb] at h'; cases h'
    | some f =>
      rw [hb] at h'
      simp only at h' ⊢
      unfold cached remember
      simp only
      by_cases ho : p.cacheOn = true
      · rw [if_pos ho, if_pos ho, List.find?_append, List.find?_eq_none.2]
        · simp only [Option.none_or, List.find?_cons, decide_true, Option.map_some]
          exact h'
        · intro e he hk
          have h1 := of_decide_eq_true (List.mem_filter.1 he).2
          exact h1 (of_decide_eq_true hk)
      · rw [if_neg ho]
        simp only
        rw [hb]
        exact h'

/-- **C137 (size), partial.** Whatever is done, the cache holds at most as many frames as allowed, but at least one may be
held.

Missing: a limit of 0 (`C137_size_violated`). -/
theorem C137_size_partial (render : Str → Nat → Option F) (l : List (Cmd × Rat)) :
    (run render l (new F)).cache.length ≤ max 1 (run render l (new F)).maxCache ∧ ((run render l (new F)).cache.map (·.1)).Nodup :=
  ⟨(run_good l new_good).size, (run_good l new_good).keys⟩

/-- **C137 (size), violated.** With a limit of 0 a frame is kept all the same, and shown in place of a later one. -/
theorem C137_size_violated :
    (run (fun _ t => some t) [(.load long, 0), (.limit 0, 0), (.show, 0)] (new Nat)).cache.length = 1 ∧
    (step (fun _ t => some t) (run (fun _ t => some t) [(.load long, 0), (.limit 0, 0), (.show, 0), (.seek 30, 0)] (new Nat)) .show 0).2 = .frame ⟨0, 30, 0⟩ := by
  decide +kernel

/-- **C137 (tests).** The report of an automatic test has the times asked for in order, each with whether the frame rendered
for it has a pixel that is not transparent; the two counts are those of the frames with and without such a pixel.  There is a
report exactly if a script is loaded and every frame can be rendered. -/
theorem C137_test (render : Str → Nat → Option (List Nat)) (p : Player F) (times : List Nat) :
    (∀ r, autoTest render p times = some r → r.points.map (·.1) = times ∧
      (∀ x ∈ r.points, ∃ src px, p.script = some src ∧ render src (x.1 / 10) = some px ∧ (x.2 = true ↔ Visible px)) ∧
      r.withContent = (r.points.filter (·.2)).length ∧ r.empty = (r.points.filter (fun x => !x.2)).length) ∧
    ((∃ r, autoTest render p times = some r) ↔ ∃ src, p.script = some src ∧ ∀ t ∈ times, ∃ px, render src (t / 10) = some px) := by
  have key : ∀ (f : Nat → Option (List Nat)) (l : List Nat) (r0 : Report),
      (∀ r, testLoop f l r0 = some r → ∃ ps : List (Nat × Bool), r.points = r0.points ++ ps ∧ ps.map (·.1) = l ∧
        (∀ x ∈ ps, ∃ px, f (x.1 / 10) = some px ∧ (x.2 = true ↔ Visible px)) ∧
        r.withContent = r0.withContent + (ps.filter (·.2)).length ∧ r.empty = r0.empty + (ps.filter (fun x => !x.2)).length) ∧
      ((∃ r, testLoop f l r0 = some r) ↔ ∀ t ∈ l, ∃ px, f (t / 10) = some px) := by
    intro f l
    induction l with
    | nil =>
      intro r0
      refine ⟨?_, ⟨fun _ => by simp, fun _ => ⟨r0, rfl⟩⟩⟩
      intro r h
      simp only [testLoop, Option.some.injEq] at h
      subst h
      exact ⟨[], by simp, rfl, by simp, by simp, by simp⟩
    | cons t l ih =>
      intro r0
      rw [testLoop]
      cases hf : f (t / 10) with
      | none =>
        refine ⟨nofun, ?_⟩
        constructor
        · rintro ⟨r, h⟩; cases h
        · intro h
          obtain ⟨px, hpx⟩ := h t (by simp)
          rw [hf] at hpx; cases hpx
      | some px =>
        simp only
        obtain ⟨a, b⟩ := ih ⟨r0.points ++ [(t, hasContent px)], if hasContent px then r0.withContent + 1 else r0.withContent,
          if hasContent px then r0.empty else r0.empty + 1⟩
        refine ⟨?_, ?_⟩
        · intro r h
          obtain ⟨ps, h1, h2, h3, h4, h5⟩ := a r h
          refine ⟨(t, hasContent px) :: ps, by rw [h1]; simp, by simp [h2], ?_, ?_, ?_⟩
          · intro x hx
            rcases List.mem_cons.1 hx with rfl | hx
            · exact ⟨px, hf, hasContent_iff px⟩
            · exact h3 x hx
          · rw [h4, List.filter_cons]
            cases hasContent px <;> simp <;> omega
          · rw [h5, List.filter_cons]
            cases hasContent px <;> simp <;> omega
        · rw [b]
          constructor
          · intro h u hu
            rcases List.mem_cons.1 hu with rfl | hu
            · exact ⟨px, hf⟩
            · exact h u hu
          · intro h u hu
            exact h u (by simp [hu])
  unfold autoTest
  cases p.script with
  | none => exact ⟨nofun, ⟨(by rintro ⟨r, h⟩; cases h), (by rintro ⟨s, h, -⟩; cases h)⟩⟩
  | some src =>
    obtain ⟨a, b⟩ := key (render src) times ⟨[], 0, 0⟩
    refine ⟨?_, ?_⟩
    · intro r h
      obtain ⟨ps, h1, h2, h3, h4, h5⟩ := a r h
      simp only [List.nil_append] at h1
      subst h1
      refine ⟨h2, ?_, by rw [h4]; simp, by rw [h5]; simp⟩
      intro x hx
      obtain ⟨px, g1, g2⟩ := h3 x hx
      exact ⟨src, px, rfl, g1, g2⟩
    · constructor
      · intro h; exact ⟨src, rfl, b.1 h⟩
      · rintro ⟨s, h, g⟩
        obtain rfl := Option.some.inj h
        exact b.2 g

example : autoTest (fun _ t => some [0, 0, 0, if t < 10 then 0 else 255]) tenSec [50, 250] = some ⟨[(50, false), (250, true)], 1, 1⟩ := by decide

end Verif.Props.Player
