import Verif.Spec.Player
import Verif.Props.Time
namespace Verif.Player
open Verif
open Verif.Parser
open Verif.Spec.Player

variable {F : Type} {render : Str → Nat → Option F}

/-! ## Rendering changes only the cache -/

/-- The same player but for the cache. -/
def Alike (p q : Player F) : Prop := ∃ c, q = { p with cache := c }

theorem Alike.refl (p : Player F) : Alike p p := ⟨p.cache, rfl⟩

theorem fresh_alike (p : Player F) : Alike p (fresh render p).1 := by
  unfold fresh
  cases p.script.bind (fun src => render src (p.time / 10)) with
  | none => exact .refl p
  | some f => exact ⟨_, rfl⟩

theorem current_alike (p : Player F) : Alike p (current render p).1 := by
  unfold current
  cases cached p with
  | none => exact fresh_alike p
  | some f => exact .refl p

/-! ## Playing -/

/-- Playing since `t0`, from `o`. -/
def Runs (o : Nat) (t0 : Rat) (p : Player F) : Prop := p.playing = true ∧ p.since = some t0 ∧ p.origin = o ∧ p.acc = 0

theorem toU32_eq {x : Rat} (h : x.floor.toNat < 2 ^ 32) : toU32 x = x.floor.toNat := by
  unfold toU32; omega

theorem update_runs {p : Player F} {o : Nat} {t0 t : Rat} (h : Runs o t0 p) (ht : o + ran p.speed t0 t < 2 ^ 32) :
    update render p t = arrive render p (o + ran p.speed t0 t) t := by
  obtain ⟨h1, h2, h3, h4⟩ := h
  unfold ran at *
  have e : toU32 (elapsed p t0 t + p.acc) = ((t - t0) * p.speed).floor.toNat := by
    unfold elapsed
    rw [h4, Rat.add_zero]
    exact toU32_eq (by omega)
  unfold update
  rw [if_pos h1, h2]
  simp only
  rw [e, h3, if_pos ht]

theorem arrive_short {p : Player F} {t : Nat} {now : Rat} (h : t < p.fin) :
    arrive render p t now = reply (current render { p with time := t }) := by
  unfold arrive
  rw [if_neg (by omega)]

/-- An update on the way. -/
theorem update_on {p : Player F} {o : Nat} {t0 t : Rat} (h : Runs o t0 p) (hf : p.fin < 2 ^ 32) (ht : o + ran p.speed t0 t < p.fin) :
    (update render p t).1.time = o + ran p.speed t0 t ∧ Runs o t0 (update render p t).1 ∧ (update render p t).1.speed = p.speed ∧
    (update render p t).1.fin = p.fin ∧ (update render p t).1.looping = p.looping := by
  rw [update_runs h (by omega), arrive_short ht]
  obtain ⟨c, hc⟩ := current_alike (render := render) { p with time := o + ran p.speed t0 t }
  show (current render _).1.time = _ ∧ Runs o t0 (current render _).1 ∧ (current render _).1.speed = _ ∧ (current render _).1.fin = _ ∧ (current render _).1.looping = _
  rw [hc]
  exact ⟨rfl, h, rfl, rfl, rfl⟩

/-- Updates on the way. -/
theorem updates_on : ∀ {ts : List Rat} {p : Player F} {o : Nat} {t0 : Rat}, Runs o t0 p → p.fin < 2 ^ 32 →
    (∀ t ∈ ts, o + ran p.speed t0 t < p.fin) →
    (∀ t, ts.getLast? = some t → (run render (ts.map (fun t => (Cmd.update, t))) p).time = o + ran p.speed t0 t) ∧
    Runs o t0 (run render (ts.map (fun t => (Cmd.update, t))) p) ∧ (run render (ts.map (fun t => (Cmd.update, t))) p).speed = p.speed ∧
    (run render (ts.map (fun t => (Cmd.update, t))) p).fin = p.fin ∧ (run render (ts.map (fun t => (Cmd.update, t))) p).looping = p.looping
  | [], p, o, t0, h, hf, ht => ⟨nofun, h, rfl, rfl, rfl⟩
  | t :: ts, p, o, t0, h, hf, ht => by
    obtain ⟨a1, a2, a3, a4, a5⟩ := update_on (render := render) h hf (ht t (by simp))
    obtain ⟨b1, b2, b3, b4, b5⟩ := updates_on (ts := ts) (p := (update render p t).1) a2 (by rw [a4]; exact hf)
      (fun u hu => by rw [a3, a4]; exact ht u (by simp [hu]))
    refine ⟨?_, b2, b3.trans a3, b4.trans a4, b5.trans a5⟩
    intro u hu
    cases ts with
    | nil =>
      simp only [List.getLast?_singleton, Option.some.injEq] at hu
      subst hu
      exact a1
    | cons v ts =>
      rw [List.getLast?_cons_cons] at hu
      have := b1 u hu
      rw [a3] at this
      exact this

theorem restart_runs {p : Player F} {now : Rat} (h : p.playing = true) : Runs p.time now (restart p now) ∧ (restart p now).time = p.time ∧
    (restart p now).speed = p.speed ∧ (restart p now).fin = p.fin ∧ (restart p now).looping = p.looping := by
  unfold restart
  rw [if_pos h]
  exact ⟨⟨h, rfl, rfl, rfl⟩, rfl, rfl, rfl, rfl⟩

/-- A stretch of playing begins. -/
theorem begins_runs {p : Player F} {c : Cmd} {t0 : Rat} (h : Begins p c) (hr : (step render p c t0).2 = .done) :
    Runs (step render p c t0).1.time t0 (step render p c t0).1 ∧ (step render p c t0).1.speed = p.speed ∧
    (step render p c t0).1.fin = p.fin ∧ (step render p c t0).1.looping = p.looping := by
  cases c with
  | play => exact ⟨⟨rfl, rfl, rfl, rfl⟩, rfl, rfl, rfl⟩
  | seek x =>
    obtain ⟨a, b, c, d, e⟩ := restart_runs (p := { p with time := min x p.fin }) (now := t0) h
    exact ⟨by rw [← b] at a; exact a, c, d, e⟩
  | backward =>
    obtain ⟨a, b, c, d, e⟩ := restart_runs (p := { p with time := p.time - 40 }) (now := t0) h
    exact ⟨by rw [← b] at a; exact a, c, d, e⟩
  | forward =>
    unfold step forward at *
    simp only at *
    by_cases hb : p.time + 40 < 2 ^ 32
    · rw [if_pos hb]
      obtain ⟨a, b, c, d, e⟩ := restart_runs (p := { p with time := min (p.time + 40) p.fin }) (now := t0) h
      exact ⟨by rw [← b] at a; exact a, c, d, e⟩
    · rw [if_neg hb] at hr; cases hr
  | _ => exact absurd h (by intro h; exact h)

/-! ## Invariants -/

/-- Time and end after a command. -/
theorem step_bounds {p : Player F} {c : Cmd} {now : Rat} (hc : ∀ src, c ≠ .load src) (h : p.time ≤ p.fin) :
    (step render p c now).1.time ≤ (step render p c now).1.fin ∧ (step render p c now).1.fin = p.fin := by
  have hrs : ∀ q : Player F, (restart q now).time = q.time ∧ (restart q now).fin = q.fin := by
    intro q; unfold restart; by_cases hq : q.playing = true
    · rw [if_pos hq]; exact ⟨rfl, rfl⟩
    · rw [if_neg hq]; exact ⟨rfl, rfl⟩
  have hcu : ∀ q : Player F, (current render q).1.time = q.time ∧ (current render q).1.fin = q.fin := by
    intro q
    obtain ⟨x, hx⟩ := current_alike (render := render) q
    rw [hx]; exact ⟨rfl, rfl⟩
  have hss : ∀ v, (setSpeed p v now).time = p.time ∧ (setSpeed p v now).fin = p.fin := by
    intro v; unfold setSpeed; by_cases hq : p.playing = true
    · rw [if_pos hq]; cases p.since <;> exact ⟨rfl, rfl⟩
    · rw [if_neg hq]; exact ⟨rfl, rfl⟩
  cases c with
  | load src => exact absurd rfl (hc src)
  | cache b => exact ⟨h, rfl⟩
  | limit n => exact ⟨h, rfl⟩
  | play => exact ⟨h, rfl⟩
  | pause => exact ⟨h, rfl⟩
  | stop => exact ⟨Nat.zero_le _, rfl⟩
  | seek t =>
    show (restart _ now).time ≤ (restart _ now).fin ∧ (restart _ now).fin = _
    rw [(hrs _).1, (hrs _).2]
    exact ⟨Nat.min_le_right _ _, rfl⟩
  | speed v =>
    show (setSpeed _ _ _).time ≤ (setSpeed _ _ _).fin ∧ (setSpeed _ _ _).fin = _
    rw [(hss _).1, (hss _).2]; exact ⟨h, rfl⟩
  | faster =>
    show (setSpeed _ _ _).time ≤ (setSpeed _ _ _).fin ∧ (setSpeed _ _ _).fin = _
    rw [(hss _).1, (hss _).2]; exact ⟨h, rfl⟩
  | slower =>
    show (setSpeed _ _ _).time ≤ (setSpeed _ _ _).fin ∧ (setSpeed _ _ _).fin = _
    rw [(hss _).1, (hss _).2]; exact ⟨h, rfl⟩
  | forward =>
    unfold step forward
    simp only
    by_cases hb : p.time + 40 < 2 ^ 32
    · rw [if_pos hb]
      show (restart _ now).time ≤ (restart _ now).fin ∧ (restart _ now).fin = _
      rw [(hrs _).1, (hrs _).2]
      exact ⟨Nat.min_le_right _ _, rfl⟩
    · rw [if_neg hb]; exact ⟨h, rfl⟩
  | backward =>
    show (restart _ now).time ≤ (restart _ now).fin ∧ (restart _ now).fin = _
    rw [(hrs _).1, (hrs _).2]
    exact ⟨Nat.le_trans (Nat.sub_le _ _) h, rfl⟩
  | setLoop b => exact ⟨h, rfl⟩
  | toggleLoop => exact ⟨h, rfl⟩
  | «show» =>
    show (current render _).1.time ≤ (current render _).1.fin ∧ (current render _).1.fin = _
    rw [(hcu _).1, (hcu _).2]; exact ⟨h, rfl⟩
  | update =>
    show (update render p now).1.time ≤ (update render p now).1.fin ∧ (update render p now).1.fin = _
    unfold update
    by_cases hp : p.playing = true
    · rw [if_pos hp]
      cases p.since with
      | none =>
        show (current render _).1.time ≤ (current render _).1.fin ∧ (current render _).1.fin = _
        rw [(hcu _).1, (hcu _).2]; exact ⟨h, rfl⟩
      | some s =>
        simp only
        by_cases hb : p.origin + toU32 (elapsed p s now + p.acc) < 2 ^ 32
        · rw [if_pos hb]
          generalize p.origin + toU32 (elapsed p s now + p.acc) = t
          unfold arrive
          by_cases ht : t ≥ p.fin
          · rw [if_pos ht]
            cases p.looping with
            | true =>
              rw [if_pos rfl]
              show (current render _).1.time ≤ (current render _).1.fin ∧ (current render _).1.fin = _
              rw [(hcu _).1, (hcu _).2]; exact ⟨Nat.zero_le _, rfl⟩
            | false => exact ⟨Nat.le_refl _, rfl⟩
          · rw [if_neg ht]
            show (current render _).1.time ≤ (current render _).1.fin ∧ (current render _).1.fin = _
            rw [(hcu _).1, (hcu _).2]; exact ⟨by show t ≤ p.fin; omega, rfl⟩
        · rw [if_neg hb]; exact ⟨h, rfl⟩
    · rw [if_neg hp]; exact ⟨h, rfl⟩

/-! ## The cache -/

/-- What the cache holds. -/
structure Good (render : Str → Nat → Option F) (p : Player F) : Prop where
  entries : ∀ e ∈ p.cache, ∃ src t, p.script = some src ∧ t / 40 * 40 = e.1 ∧ render src (t / 10) = some e.2
  keys : (p.cache.map (·.1)).Nodup
  off : p.cacheOn = false → p.cache = []
  size : p.cache.length ≤ max 1 p.maxCache

theorem dropLeast_sub (c : List (Nat × F)) : (dropLeast c).Sublist c := by
  unfold dropLeast
  cases (c.map (·.1)).min? with
  | none => exact List.Sublist.refl _
  | some k => exact List.filter_sublist

theorem dropLeast_length {c : List (Nat × F)} (h : c ≠ []) : (dropLeast c).length < c.length := by
  unfold dropLeast
  cases hm : (c.map (·.1)).min? with
  | none =>
    rw [List.min?_eq_none_iff, List.map_eq_nil_iff] at hm
    exact absurd hm h
  | some k =>
    have hk : k ∈ c.map (·.1) := List.min?_mem hm
    obtain ⟨e, he, rfl⟩ := List.mem_map.1 hk
    simp only
    exact List.length_filter_lt_length_iff_exists.2 ⟨e, he, by simp⟩

theorem trim_sub : ∀ (n size : Nat) (c : List (Nat × F)), (trim n size c).Sublist c
  | 0, _, c => List.Sublist.refl _
  | n + 1, size, c => by
    rw [trim]
    by_cases h : c.length > size
    · rw [if_pos h]; exact (trim_sub n size _).trans (dropLeast_sub c)
    · rw [if_neg h]; exact List.Sublist.refl _

theorem trim_length : ∀ (n size : Nat) (c : List (Nat × F)), c.length ≤ n → (trim n size c).length ≤ size
  | 0, _, c, h => by
    show c.length ≤ _
    omega
  | n + 1, size, c, h => by
    rw [trim]
    by_cases hc : c.length > size
    · rw [if_pos hc]
      have := dropLeast_length (c := c) (by intro e; rw [e] at hc; cases hc)
      exact trim_length n size _ (by omega)
    · rw [if_neg hc]; omega

theorem Good.of_sub {p : Player F} (h : Good render p) {c : List (Nat × F)} (hs : c.Sublist p.cache) : Good render { p with cache := c } :=
  ⟨fun e he => h.entries e (hs.subset he), (hs.map _).nodup h.keys, fun ho => List.eq_nil_of_sublist_nil (by have := h.off ho; rw [this] at hs; exact hs),
    Nat.le_trans hs.length_le h.size⟩

theorem Good.congr {p q : Player F} (h : Good render p) (h1 : q.script = p.script) (h2 : q.cache = p.cache) (h3 : q.cacheOn = p.cacheOn)
    (h4 : q.maxCache = p.maxCache) : Good render q :=
  ⟨by rw [h1, h2]; exact h.entries, by rw [h2]; exact h.keys, by rw [h2, h3]; exact h.off, by rw [h2, h4]; exact h.size⟩

/-- A frame that was asked for. -/
theorem current_good {p : Player F} (h : Good render p) : Good render (current render p).1 ∧
    ∀ s, (current render p).2 = some s → s.timestamp = p.time ∧ s.number = p.time / 40 ∧
      ∃ src t, p.script = some src ∧ SameSlot t p.time ∧ (p.cacheOn = false → t = p.time) ∧ render src (t / 10) = some s.frame := by
  unfold current
  cases hc : cached p with
  | some f =>
    refine ⟨h, ?_⟩
    intro s hs
    simp only [Option.some.injEq] at hs
    subst hs
    refine ⟨rfl, rfl, ?_⟩
    unfold cached at hc
    by_cases ho : p.cacheOn = true
    · rw [if_pos ho] at hc
      cases hf : p.cache.find? (fun e => decide (e.1 = p.time / 40 * 40)) with
      | none => rw [hf] at hc; cases hc
      | some e =>
        rw [hf] at hc
        simp only [Option.map_some, Option.some.injEq] at hc
        obtain ⟨src, t, h1, h2, h3⟩ := h.entries e (List.mem_of_find?_eq_some hf)
        have h4 := List.find?_some hf
        simp only [decide_eq_true_eq] at h4
        refine ⟨src, t, h1, ?_, ?_, by rw [h3, hc]⟩
        · unfold SameSlot; omega
        · intro g; rw [ho] at g; cases g
    · rw [if_neg ho] at hc; cases hc
  | none =>
    simp only
    unfold fresh
    cases hb : p.script.bind (fun src => render src (p.time / 10)) with
    | none => exact ⟨h, fun s hs => by cases hs⟩
    | some f =>
      obtain ⟨src, h1, h2⟩ := Option.bind_eq_some_iff.1 hb
      simp only
      refine ⟨?_, ?_⟩
      · unfold remember
        by_cases ho : p.cacheOn = true
        · rw [if_pos ho]
          generalize hd : (if p.cache.length ≥ p.maxCache then dropLeast p.cache else p.cache) = d
          have hds : d.Sublist p.cache := by
            rw [← hd]
            by_cases hl : p.cache.length ≥ p.maxCache
            · rw [if_pos hl]; exact dropLeast_sub _
            · rw [if_neg hl]; exact List.Sublist.refl _
          have hdl : d.length + 1 ≤ max 1 p.maxCache := by
            rw [← hd]
            by_cases hl : p.cache.length ≥ p.maxCache
            · rw [if_pos hl]
              by_cases he : p.cache = []
              · rw [he]
                show (dropLeast ([] : List (Nat × F))).length + 1 ≤ _
                exact Nat.le_max_left _ _
              · have := dropLeast_length he
                have := h.size
                omega
            · rw [if_neg hl]
              omega
          have hfs : (d.filter (fun e => decide (e.1 ≠ p.time / 40 * 40))).Sublist d := List.filter_sublist
          have hsub := hfs.trans hds
          refine ⟨?_, ?_, ?_, ?_⟩
          · intro e he
            rcases List.mem_append.1 he with he | he
            · exact h.entries e (hsub.subset he)
            · simp only [List.mem_singleton] at he
              subst he
              exact ⟨src, p.time, h1, rfl, h2⟩
          · show (List.map (fun e : Nat × F => e.1) (_ ++ _)).Nodup
            rw [List.map_append, List.nodup_append]
            refine ⟨(hsub.map _).nodup h.keys, by simp, ?_⟩
            intro a ha b hb
            obtain ⟨e, he, rfl⟩ := List.mem_map.1 ha
            simp only [List.map_cons, List.map_nil, List.mem_singleton] at hb
            subst hb
            exact of_decide_eq_true (List.mem_filter.1 he).2
          · intro g
            have : p.cacheOn = false := g
            rw [ho] at this; cases this
          · show (_ ++ _ : List _).length ≤ max 1 p.maxCache
            rw [List.length_append]
            have := hfs.length_le
            simp only [List.length_singleton]
            omega
        · rw [if_neg ho]; exact h
      · intro s hs
        simp only [Option.some.injEq] at hs
        subst hs
        exact ⟨rfl, rfl, src, p.time, h1, rfl, fun _ => rfl, h2⟩

/-- What one command leaves and shows. -/
theorem step_good {p : Player F} (h : Good render p) (c : Cmd) (now : Rat) : Good render (step render p c now).1 ∧
    ∀ s, (step render p c now).2 = .frame s → s.timestamp = (step render p c now).1.time ∧ s.number = (step render p c now).1.time / 40 ∧
      ∃ src t, (step render p c now).1.script = some src ∧ SameSlot t (step render p c now).1.time ∧
        ((step render p c now).1.cacheOn = false → t = (step render p c now).1.time) ∧ render src (t / 10) = some s.frame := by
  have hre : ∀ q : Player F, Good render q → Good render (reply (current render q)).1 ∧
      ∀ s, (reply (current render q)).2 = .frame s → s.timestamp = (reply (current render q)).1.time ∧ s.number = (reply (current render q)).1.time / 40 ∧
      ∃ src t, (reply (current render q)).1.script = some src ∧ SameSlot t (reply (current render q)).1.time ∧
        ((reply (current render q)).1.cacheOn = false → t = (reply (current render q)).1.time) ∧ render src (t / 10) = some s.frame := by
    intro q hq
    obtain ⟨a, b⟩ := current_good hq
    refine ⟨a, ?_⟩
    intro s hs
    obtain ⟨c, hc⟩ := current_alike (render := render) q
    cases hk : (current render q).2 with
    | none => unfold reply at hs; rw [hk] at hs; cases hs
    | some s' =>
      unfold reply at hs
      rw [hk] at hs
      simp only [Reply.frame.injEq] at hs
      subst hs
      show _ = (current render q).1.time ∧ _ = (current render q).1.time / 40 ∧ ∃ src t, (current render q).1.script = _ ∧
        SameSlot t (current render q).1.time ∧ ((current render q).1.cacheOn = false → t = (current render q).1.time) ∧ _
      rw [hc]
      exact b s' hk
  have hno : ∀ {q : Player F}, Good render q → Good render (q, (Reply.done : Reply F)).1 ∧ ∀ s, (q, (Reply.done : Reply F)).2 = .frame s → s.timestamp = q.time ∧ s.number = q.time / 40 ∧
      ∃ src t, q.script = some src ∧ SameSlot t q.time ∧ (q.cacheOn = false → t = q.time) ∧ render src (t / 10) = some s.frame :=
    fun hq => ⟨hq, fun s hs => by cases hs⟩
  have hrs : ∀ {q : Player F}, Good render q → Good render (restart q now) := by
    intro q hq
    unfold restart; by_cases hp : q.playing = true
    · rw [if_pos hp]; exact hq.congr rfl rfl rfl rfl
    · rw [if_neg hp]; exact hq
  have hss : ∀ v, Good render (setSpeed p v now) := by
    intro v; unfold setSpeed; by_cases hq : p.playing = true
    · rw [if_pos hq]; cases p.since <;> exact h.congr rfl rfl rfl rfl
    · rw [if_neg hq]; exact h.congr rfl rfl rfl rfl
  cases c with
  | load src =>
    unfold step load
    simp only
    cases (parse src).bind duration with
    | none => exact ⟨h, fun s hs => by cases hs⟩
    | some d => exact hno ⟨by simp, by simp, by simp, by simp⟩
  | cache b =>
    refine hno (q := setCache p b) ?_
    unfold setCache
    cases b with
    | true => exact ⟨h.entries, h.keys, by simp, h.size⟩
    | false => exact ⟨by simp, by simp, by simp, by simp⟩
  | limit n =>
    refine hno (q := setMax p n) ?_
    unfold setMax
    have := h.of_sub (trim_sub p.cache.length n p.cache)
    exact ⟨this.entries, this.keys, this.off, Nat.le_trans (trim_length _ _ _ (Nat.le_refl _)) (Nat.le_max_right _ _)⟩
  | play => exact hno (h.congr rfl rfl rfl rfl)
  | pause => exact hno (h.congr rfl rfl rfl rfl)
  | stop => exact hno (h.congr rfl rfl rfl rfl)
  | seek t => exact hno (hrs (h.congr rfl rfl rfl rfl))
  | speed v => exact hno (hss _)
  | faster => exact hno (hss _)
  | slower => exact hno (hss _)
  | forward =>
    unfold step forward
    simp only
    by_cases hb : p.time + 40 < 2 ^ 32
    · rw [if_pos hb]; exact hno (hrs (h.congr rfl rfl rfl rfl))
    · rw [if_neg hb]; exact ⟨h, fun s hs => by cases hs⟩
  | backward => exact hno (hrs (h.congr rfl rfl rfl rfl))
  | setLoop b => exact hno (h.congr rfl rfl rfl rfl)
  | toggleLoop => exact hno (h.congr rfl rfl rfl rfl)
  | «show» => exact hre p h
  | update =>
    unfold step update
    simp only
    by_cases hp : p.playing = true
    · rw [if_pos hp]
      cases p.since with
      | none => exact hre p h
      | some s =>
        simp only
        by_cases hb : p.origin + toU32 (elapsed p s now + p.acc) < 2 ^ 32
        · rw [if_pos hb]
          generalize p.origin + toU32 (elapsed p s now + p.acc) = t
          unfold arrive
          by_cases ht : t ≥ p.fin
          · rw [if_pos ht]
            by_cases hl : p.looping = true
            · rw [if_pos hl]; exact hre _ (h.congr rfl rfl rfl rfl)
            · rw [if_neg hl]; exact hno (h.congr rfl rfl rfl rfl)
          · rw [if_neg ht]; exact hre _ (h.congr rfl rfl rfl rfl)
        · rw [if_neg hb]; exact ⟨h, fun s hs => by cases hs⟩
    · rw [if_neg hp]; exact hno h

theorem run_good : ∀ (l : List (Cmd × Rat)) {p : Player F}, Good render p → Good render (run render l p)
  | [], _, h => h
  | (c, now) :: l, _, h => run_good l (step_good h c now).1

theorem new_good : Good render (new F) := ⟨by simp [new], by simp [new], by simp [new], by simp [new]⟩

theorem run_append : ∀ (a b : List (Cmd × Rat)) (p : Player F), run render (a ++ b) p = run render b (run render a p)
  | [], _, _ => rfl
  | (c, now) :: a, b, p => run_append a b _

/-! ## Speed -/

theorem setSpeed_range (p : Player F) (v now : Rat) : 1 / 10 ≤ (setSpeed p v now).speed ∧ (setSpeed p v now).speed ≤ 10 := by
  have : 1 / 10 ≤ max (1 / 10 : Rat) (min v 10) ∧ max (1 / 10 : Rat) (min v 10) ≤ 10 := by
    have h0 : (1 / 10 : Rat) ≤ 10 := by decide +kernel
    generalize (1 / 10 : Rat) = a at *
    constructor <;> grind
  unfold setSpeed
  by_cases hq : p.playing = true
  · rw [if_pos hq]; cases p.since <;> exact this
  · rw [if_neg hq]; exact this

/-! ## Duration -/

theorem ends_eq (s : Script) : ends s = endTexts s := rfl

theorem foldlM_ends : ∀ {l : List Str} {vs : List Nat}, Ends l vs → ∀ m, (∀ v ∈ vs, v * 10 < 2 ^ 32) →
    l.foldlM latest m = some (vs.foldl (fun a v => max a (v * 10)) m) := by
  intro l vs h
  induction h with
  | nil => intro m _; rfl
  | @some s v l vs hv _ ih =>
    intro m hm
    have hb := hm v (by simp)
    rw [List.foldlM_cons]
    have : latest m s = some (max m (v * 10)) := by
      unfold latest
      rw [(Props.C02_parse_accepts_iff s v).2 ⟨hv, by omega⟩]
      simp only
      rw [if_pos hb]
    rw [this]
    exact ih _ (fun v hv => hm v (by simp [hv]))
  | @none s l vs hv _ ih =>
    intro m hm
    rw [List.foldlM_cons]
    have : latest m s = some m := by
      unfold latest
      rw [(Props.C02_parse_rejects_iff s).2 (by rintro ⟨v, h⟩; exact hv v h)]
    rw [this]
    exact ih _ hm

theorem foldl_max : ∀ (vs : List Nat) (m g : Nat), Greatest vs g → vs.foldl (fun a v => max a (v * 10)) m = max m (g * 10) := by
  intro vs
  induction vs with
  | nil =>
    rintro m g ⟨-, h | ⟨-, rfl⟩⟩
    · cases h
    · simp
  | cons v vs ih =>
    rintro m g ⟨h1, h2⟩
    rw [List.foldl_cons]
    rcases h2 with h2 | ⟨h2, -⟩
    · by_cases hg : g ∈ vs
      · rw [ih _ g ⟨fun x hx => h1 x (by simp [hx]), Or.inl hg⟩]
        have := h1 v (by simp)
        omega
      · have hv : g = v := by
          rcases List.mem_cons.1 h2 with h | h
          · exact h
          · exact absurd h hg
        subst hv
        have key : ∀ (l : List Nat) (m : Nat), (∀ x ∈ l, x * 10 ≤ m) → l.foldl (fun a v => max a (v * 10)) m = m := by
          intro l
          induction l with
          | nil => intro m _; rfl
          | cons x l ihl =>
            intro m hm
            rw [List.foldl_cons, Nat.max_eq_left (hm x (by simp))]
            exact ihl m (fun y hy => hm y (by simp [hy]))
        apply key
        intro x hx
        have := h1 x (by simp [hx])
        omega
    · cases h2

theorem duration_spec {s : Script} {vs : List Nat} {g : Nat} (h : Ends (endTexts s) vs) (hb : ∀ v ∈ vs, v * 10 < 2 ^ 32) (hg : Greatest vs g) :
    duration s = some (if 0 < g then 10 * g else 10000) := by
  unfold duration
  rw [ends_eq, foldlM_ends h 0 hb, foldl_max vs 0 g hg]
  by_cases h0 : 0 < g
  · rw [if_pos h0, Option.map_some, if_pos (by omega)]
    congr 1; omega
  · rw [if_neg h0, Option.map_some, if_neg (by omega)]

theorem hasContent_iff : ∀ (px : List Nat), hasContent px = true ↔ Visible px
  | a :: b :: c :: d :: l => by
    have ih := hasContent_iff l
    rw [hasContent, Bool.or_eq_true, decide_eq_true_eq, ih]
    unfold Visible
    constructor
    · rintro (h | ⟨i, v, h1, h2⟩)
      · exact ⟨0, d, rfl, h⟩
      · refine ⟨i + 1, v, ?_, h2⟩
        rw [← h1]
        show (a :: b :: c :: d :: l)[4 * i + 3 + 4]? = _
        rfl
    · rintro ⟨i, v, h1, h2⟩
      cases i with
      | zero =>
        simp at h1
        left; omega
      | succ i => exact Or.inr ⟨i, v, by rw [← h1]; rfl, h2⟩
  | [] => by simp [hasContent, Visible]
  | [a] => by simp [hasContent, Visible]
  | [a, b] => by
    constructor
    · intro h; cases h
    · rintro ⟨i, v, h1, h2⟩
      rw [List.getElem?_eq_none (by simp)] at h1; cases h1
  | [a, b, c] => by
    constructor
    · intro h; cases h
    · rintro ⟨i, v, h1, h2⟩
      rw [List.getElem?_eq_none (by simp)] at h1; cases h1

end Verif.Player
