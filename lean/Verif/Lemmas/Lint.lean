import Verif.Spec.Lint
import Verif.Lemmas.Time
import Verif.Props.Time
import Verif.Props.Styles
import Verif.Lemmas.StrX
namespace Verif.Lint
open Verif Verif.Spec Verif.Spec.Lint
open Verif.Ast (Event Style)
open Verif.Time (parseAssTime)

theorem collect_ok {α : Type} {f : α → Outcome (List Issue)} {l : List α} {out : List Issue} :
    collect f l = .ok out ↔ ∃ g : α → List Issue, (∀ x ∈ l, f x = .ok (g x)) ∧ out = l.flatMap g := by
  induction l generalizing out with
  | nil =>
    simp only [collect]
    constructor
    · intro h
      injection h with h
      exact ⟨fun _ => [], by simp, by simp [← h]⟩
    · rintro ⟨g, _, h⟩
      rw [h]; rfl
  | cons x l ih =>
    rw [collect]
    constructor
    · intro h
      cases hx : f x with
      | err => rw [hx] at h; cases h
      | panic => rw [hx] at h; cases h
      | ok a =>
        rw [hx] at h
        simp only at h
        cases hl : collect f l with
        | err => rw [hl] at h; cases h
        | panic => rw [hl] at h; cases h
        | ok b =>
          rw [hl] at h
          injection h with h
          obtain ⟨g, h1, h2⟩ := ih.1 hl
          let g' : α → List Issue := fun y => match f y with | .ok a => a | _ => []
          refine ⟨g', ?_, ?_⟩
          · intro y hy
            rcases List.mem_cons.1 hy with rfl | hy
            · simp only [g', hx]
            · simp only [g', h1 y hy]
          · rw [← h, List.flatMap_cons]
            have e1 : g' x = a := by simp only [g', hx]
            have e2 : l.flatMap g' = l.flatMap g := by
              have : ∀ m : List α, (∀ y ∈ m, f y = .ok (g y)) → m.flatMap g' = m.flatMap g := by
                intro m hm
                induction m with
                | nil => rfl
                | cons y m ihm =>
                  rw [List.flatMap_cons, List.flatMap_cons, ihm (fun z hz => hm z (List.mem_cons_of_mem _ hz))]
                  simp only [g', hm y (by simp)]
              exact this l h1
            rw [e1, e2, h2]
    · rintro ⟨g, h1, h2⟩
      rw [h1 x (by simp)]
      simp only
      rw [ih.2 ⟨g, fun y hy => h1 y (List.mem_cons_of_mem _ hy), rfl⟩, h2, List.flatMap_cons]

theorem reports_flatMap {α : Type} {P : α → Prop} {mk : α → Issue} {g : α → List Issue} :
    ∀ (l : List α), (∀ x ∈ l, (P x → g x = [mk x]) ∧ (¬ P x → g x = [])) → Reports P mk l (l.flatMap g)
  | [], _ => .nil
  | x :: l, h => by
    rw [List.flatMap_cons]
    have ih := reports_flatMap l (fun y hy => h y (List.mem_cons_of_mem _ hy))
    by_cases hp : P x
    · rw [(h x (by simp)).1 hp]
      exact .yes _ _ _ hp ih
    · rw [(h x (by simp)).2 hp]
      exact .no _ _ _ hp ih

theorem time_unique {s : List Char} {v w : Nat} (h : TimeText s v) (hv : v < 2 ^ 32) (h' : TimeText s w) (hw : w < 2 ^ 32) : v = w := by
  have h1 := (Props.C02_parse_accepts_iff s v).2 ⟨h, hv⟩
  have h2 := (Props.C02_parse_accepts_iff s w).2 ⟨h', hw⟩
  rw [h1] at h2
  injection h2

/-- What `times` finds. -/
theorem times_some {e : Event} {s t : Nat} :
    times e = .ok (some (s, t)) ↔ (TimeText e.start s ∧ s < 2 ^ 32) ∧ TimeText e.stop t ∧ t < 2 ^ 32 := by
  rw [← Props.C02_parse_accepts_iff, ← Props.C02_parse_accepts_iff]
  unfold times
  cases h1 : parseAssTime e.start <;> cases h2 : parseAssTime e.stop <;> simp

theorem times_panic {e : Event} : times e = .panic ↔
    (∃ s, TimeText e.start s ∧ 2 ^ 32 ≤ s) ∨ ∃ t, TimeText e.stop t ∧ 2 ^ 32 ≤ t := by
  rw [← Props.C02_overflow_iff, ← Props.C02_overflow_iff]
  unfold times
  cases h1 : parseAssTime e.start <;> cases h2 : parseAssTime e.stop <;> simp

theorem times_none {e : Event} (h : times e = .ok none) : (¬ ∃ s, TimeText e.start s) ∨ ¬ ∃ t, TimeText e.stop t := by
  rw [← Props.C02_parse_rejects_iff, ← Props.C02_parse_rejects_iff]
  unfold times at h
  cases h1 : parseAssTime e.start <;> cases h2 : parseAssTime e.stop <;> rw [h1, h2] at h <;> simp at h ⊢

theorem times_not_err (e : Event) : times e ≠ .err := by
  unfold times
  cases h1 : parseAssTime e.start <;> cases h2 : parseAssTime e.stop <;> simp

theorem times_fit {e : Event} (h : times e ≠ .panic) : FitTimes e := by
  rw [Ne, times_panic] at h
  refine ⟨fun s hs => ?_, fun t ht => ?_⟩
  · exact Nat.lt_of_not_le (fun hc => h (.inl ⟨s, hs, hc⟩))
  · exact Nat.lt_of_not_le (fun hc => h (.inr ⟨t, ht, hc⟩))

theorem fit_times {e : Event} (h : FitTimes e) : times e ≠ .panic := by
  rw [Ne, times_panic]
  rintro (⟨s, hs, hc⟩ | ⟨t, ht, hc⟩)
  · have := h.1 s hs; omega
  · have := h.2 t ht; omega

/-- The duration check of one event. -/
theorem durationCheck_spec (e : Event) (x : List Issue) (h : durationCheck e = .ok x) :
    (NoDuration e → x = [⟨.error, "negative-duration".toList, .duration e.start e.stop⟩]) ∧ (¬ NoDuration e → x = []) := by
  unfold durationCheck at h
  cases ht : times e with
  | err => exact absurd ht (times_not_err e)
  | panic => rw [ht] at h; cases h
  | ok o =>
    rw [ht] at h
    cases o with
    | none =>
      injection h with h
      refine ⟨fun ⟨s, t, hs, ht', _⟩ => ?_, fun _ => h.symm⟩
      rcases times_none ht with hn | hn
      · exact absurd ⟨s, hs⟩ hn
      · exact absurd ⟨t, ht'⟩ hn
    | some p =>
      obtain ⟨s, t⟩ := p
      simp only at h
      injection h with h
      obtain ⟨⟨hs, hs'⟩, hst, hst'⟩ := times_some.1 ht
      have hf : FitTimes e := times_fit (by rw [ht]; simp)
      have iff : NoDuration e ↔ s ≥ t := by
        constructor
        · rintro ⟨s', t', h1, h2, h3⟩
          have e1 := time_unique hs hs' h1 (hf.1 _ h1)
          have e2 := time_unique hst hst' h2 (hf.2 _ h2)
          omega
        · intro hge
          exact ⟨s, t, hs, hst, hge⟩
      refine ⟨fun hn => ?_, fun hn => ?_⟩
      · rw [← h, if_pos (iff.1 hn)]
      · rw [← h, if_neg (fun hc => hn (iff.2 hc))]

theorem durationCheck_total (e : Event) (h : FitTimes e) : ∃ x, durationCheck e = .ok x := by
  unfold durationCheck
  cases ht : times e with
  | err => exact absurd ht (times_not_err e)
  | panic => exact absurd ht (fit_times h)
  | ok o =>
    cases o with
    | none => exact ⟨_, rfl⟩
    | some p => exact ⟨_, rfl⟩

theorem collect_total {α : Type} {f : α → Outcome (List Issue)} (l : List α) (h : ∀ x ∈ l, ∃ a, f x = .ok a) : ∃ out, collect f l = .ok out := by
  induction l with
  | nil => exact ⟨[], rfl⟩
  | cons x l ih =>
    obtain ⟨a, ha⟩ := h x (by simp)
    obtain ⟨b, hb⟩ := ih (fun y hy => h y (List.mem_cons_of_mem _ hy))
    exact ⟨a ++ b, by rw [collect, ha]; simp only; rw [hb]⟩

/-- The names of resolved styles. -/
theorem resolvedNames_spec (alone child : Style → Bool) (styles : List Style) (n : List Char) :
    n ∈ resolvedNames alone child styles ↔ ∃ s ∈ styles, s.name = n ∧ alone s = true := by
  obtain ⟨res, h1, h2⟩ := Props.C23_never_inherits (B := Style) (R := Unit) (fun s => if alone s.body then some () else none)
    (fun s _ => if child s.body then some () else none) id (styles.map (fun s => ⟨s.name, s.parent, s⟩))
  unfold resolvedNames
  rw [h1]
  simp only
  have key : n ∈ res.map (·.1) ↔ (Map.get res n).isSome = true := by
    clear h1 h2
    induction res with
    | nil => simp [Map.get]
    | cons p r ih =>
      obtain ⟨k, v⟩ := p
      rw [Map.get, List.map_cons, List.mem_cons]
      by_cases hk : k = n
      · rw [if_pos hk]; simp [hk]
      · rw [if_neg hk, ← ih]
        constructor
        · rintro (h | h)
          · exact absurd h.symm hk
          · exact h
        · exact .inr
  rw [key, h2]
  simp only [Option.map_id, id_eq]
  have hg : ∀ l : List Unit, l.getLast?.isSome = true ↔ l ≠ [] := by
    intro l; cases l <;> simp
  rw [hg]
  constructor
  · intro h
    obtain ⟨u, hu⟩ := List.exists_mem_of_ne_nil _ h
    obtain ⟨s, hs, he⟩ := List.mem_filterMap.1 hu
    obtain ⟨x, hx, rfl⟩ := List.mem_map.1 hs
    simp only at he
    refine ⟨x, hx, ?_⟩
    by_cases hn : x.name = n
    · rw [if_pos hn] at he
      by_cases ha : alone x = true
      · exact ⟨hn, ha⟩
      · rw [if_neg ha] at he; cases he
    · rw [if_neg hn] at he; cases he
  · rintro ⟨s, hs, hn, ha⟩
    have : () ∈ (styles.map (fun s => (⟨s.name, s.parent, s⟩ : Styles.Style Style))).filterMap
        (fun s => if s.name = n then (if alone s.body then some () else none) else none) :=
      List.mem_filterMap.2 ⟨⟨s.name, s.parent, s⟩, List.mem_map.2 ⟨s, hs, rfl⟩, by simp [hn, ha]⟩
    exact List.ne_nil_of_mem this

/-! ## Running the rules -/

/-- The issues of one rule that are severe enough. -/
def pick (c : Config) : Outcome (List Issue) → Outcome (List Issue)
  | .ok l => .ok (l.filter (fun i => c.minSeverity.rank ≤ i.severity.rank))
  | .err => .err
  | .panic => .panic

/-- What the rules say, filtered. -/
def gathered (c : Config) : List (Str × Outcome (List Issue)) → Outcome (List Issue)
  | [] => .ok []
  | (id, r) :: rest =>
    if c.runs id then both (pick c r) (gathered c rest)
    else gathered c rest

theorem runLoop_gathered {c : Config} {rules : List (Str × Outcome (List Issue))} {all : List Issue} (h : gathered c rules = .ok all) :
    ∀ acc, (c.maxIssues = 0 ∨ acc.length < c.maxIssues) → runLoop c acc rules = .ok (limited c.maxIssues (acc ++ all)) := by
  induction rules generalizing all with
  | nil =>
    intro acc hacc
    injection h with h
    subst h
    rw [runLoop, List.append_nil]
    unfold limited
    by_cases h0 : c.maxIssues = 0
    · rw [if_pos h0]
    · rw [if_neg h0, List.take_of_length_le (by omega)]
  | cons p rest ih =>
    obtain ⟨id, r⟩ := p
    intro acc hacc
    rw [gathered] at h
    simp only [runLoop]
    by_cases hr : c.runs id = true
    · rw [if_pos hr] at h ⊢
      cases r with
      | err => simp [both, pick] at h
      | panic => simp [both, pick] at h
      | ok l =>
        simp only [both, pick] at h
        cases hg : gathered c rest with
        | err => rw [hg] at h; cases h
        | panic => rw [hg] at h; cases h
        | ok b =>
          rw [hg] at h
          injection h with h
          subst h
          simp only
          generalize l.filter (fun i => decide (c.minSeverity.rank ≤ i.severity.rank)) = f
          by_cases hm : c.maxIssues > 0 ∧ (acc ++ f).length ≥ c.maxIssues
          · rw [if_pos hm]
            unfold limited
            rw [if_neg (by omega), ← List.append_assoc, List.take_append_of_le_length hm.2]
          · rw [if_neg hm, ih hg _ (by omega), List.append_assoc]
    · rw [if_neg hr] at h ⊢
      exact ih h acc hacc

theorem rank_eq (s : Severity) : s.rank = severityNumber s := by cases s <;> rfl

theorem runs_iff (c : Config) (id : Str) : c.runs id = true ↔ Runs c id := by
  unfold Config.runs Runs
  by_cases h : id ∈ c.disabled
  · simp [h]
  · simp [h]

/-- Issues carry the name of their rule. -/
def Named (rules : List (Str × Outcome (List Issue))) : Prop :=
  ∀ id l, (id, Outcome.ok l) ∈ rules → ∀ i ∈ l, i.rule = id

theorem gathered_all {c : Config} {rules : List (Str × Outcome (List Issue))} (hn : Named rules) {all : List Issue}
    (h : gathered Config.default rules = .ok all) : gathered c rules = .ok (all.filter (fun i => decide (Allowed c i))) := by
  induction rules generalizing all with
  | nil => injection h with h; subst h; rfl
  | cons p rest ih =>
    obtain ⟨id, r⟩ := p
    have hd : Config.default.runs id = true := by simp [Config.default, Config.runs]
    rw [gathered, if_pos hd] at h
    cases r with
    | err => simp [both, pick] at h
    | panic => simp [both, pick] at h
    | ok l =>
      simp only [both, pick] at h
      cases hg : gathered Config.default rest with
      | err => rw [hg] at h; cases h
      | panic => rw [hg] at h; cases h
      | ok b =>
        rw [hg] at h
        injection h with h
        subst h
        have e : l.filter (fun i => decide (Config.default.minSeverity.rank ≤ i.severity.rank)) = l := by
          rw [List.filter_eq_self]
          intro a _
          simp [Config.default, Severity.rank]
        rw [e, List.filter_append]
        have hl := hn id l (by simp)
        rw [gathered, ih (fun i m hm => hn i m (List.mem_cons_of_mem _ hm)) hg]
        by_cases hr : c.runs id = true
        · rw [if_pos hr]
          simp only [both, pick]
          congr 2
          apply List.filter_congr
          intro i hi
          rw [decide_eq_decide]
          unfold Allowed
          rw [hl i hi, ← rank_eq, ← rank_eq]
          simp [(runs_iff c id).1 hr]
        · rw [if_neg hr]
          have : l.filter (fun i => decide (Allowed c i)) = [] := by
            rw [List.filter_eq_nil_iff]
            intro i hi
            rw [decide_eq_true_eq]
            unfold Allowed
            rw [hl i hi]
            exact fun hc => hr ((runs_iff c id).2 hc.1)
          rw [this, List.nil_append]

theorem named_collect {α : Type} {f : α → Outcome (List Issue)} {l : List α} {out : List Issue} {n : Str} (h : collect f l = .ok out)
    (hf : ∀ x a, f x = .ok a → ∀ i ∈ a, i.rule = n) : ∀ i ∈ out, i.rule = n := by
  obtain ⟨g, h1, h2⟩ := collect_ok.1 h
  intro i hi
  rw [h2] at hi
  obtain ⟨x, hx, hi⟩ := List.mem_flatMap.1 hi
  exact hf x _ (h1 x hx) i hi

theorem named_both {a b : Outcome (List Issue)} {out : List Issue} {n : Str} (h : both a b = .ok out)
    (ha : ∀ l, a = .ok l → ∀ i ∈ l, i.rule = n) (hb : ∀ l, b = .ok l → ∀ i ∈ l, i.rule = n) : ∀ i ∈ out, i.rule = n := by
  unfold both at h
  cases a with
  | err => cases h
  | panic => cases h
  | ok x =>
    cases b with
    | err => cases h
    | panic => cases h
    | ok y =>
      injection h with h
      intro i hi
      rw [← h] at hi
      rcases List.mem_append.1 hi with hi | hi
      · exact ha x rfl i hi
      · exact hb y rfl i hi

theorem mem_if_one {p : Prop} [Decidable p] {x i : Issue} (h : i ∈ (if p then [x] else [])) : i = x := by
  by_cases hp : p
  · rw [if_pos hp] at h; simpa using h
  · rw [if_neg hp] at h; cases h

theorem named_rules (alone child : Style → Bool) (secs : List Parser.Section) (inf : List Dialogue.Info) :
    Named (allRules alone child secs inf) := by
  intro id l hm
  unfold allRules at hm
  simp only [List.mem_cons, List.not_mem_nil, or_false, Prod.mk.injEq] at hm
  rcases hm with ⟨rfl, h⟩ | ⟨rfl, h⟩ | ⟨rfl, h⟩ | ⟨rfl, h⟩ | ⟨rfl, h⟩ | ⟨rfl, h⟩ | ⟨rfl, h⟩ | ⟨rfl, h⟩
  · unfold overlapRule at h
    split at h
    · injection h with h; subst h; simp
    · split at h
      · cases h
      · injection h with h; subst h; simp
      · split at h
        · refine named_collect h.symm (fun p a ha => ?_)
          unfold overlapIssue at ha
          split at ha
          · injection ha with ha; subst ha; simp
          · cases ha
        · injection h with h; subst h; simp
  · refine named_collect h.symm (fun e a ha i hi => ?_)
    unfold durationCheck at ha
    split at ha
    · injection ha with ha
      subst ha
      rw [mem_if_one hi]
    · injection ha with ha; subst ha; cases hi
    · cases ha
    · cases ha
  · refine named_both h.symm (fun x hx i hi => ?_) (fun x hx => ?_)
    · injection hx with hx
      subst hx
      obtain ⟨s, _, hi⟩ := List.mem_flatMap.1 hi
      unfold styleColors styleColor at hi
      simp only [List.mem_append] at hi
      rcases hi with ((hi | hi) | hi) | hi <;> rw [mem_if_one hi]
    · refine named_collect hx (fun e a ha => ?_)
      unfold eventColors at ha
      split at ha
      · refine named_collect ha (fun t b hb => ?_)
        unfold colorTag at hb
        refine named_collect hb (fun p d hd i hi => ?_)
        unfold colorPart at hd
        split at hd
        · injection hd with hd; subst hd; cases hi
        · split at hd
          · injection hd with hd
            subst hd
            rw [mem_if_one hi]
          · injection hd with hd; subst hd; cases hi
          · cases hd
          · cases hd
      · injection ha with ha; subst ha; simp
      · cases ha
  · injection h with h
    subst h
    intro i hi
    unfold styleRule at hi
    obtain ⟨e, _, hi⟩ := List.mem_flatMap.1 hi
    split at hi
    · cases hi
    · rw [List.mem_singleton.1 hi]
  · unfold tagRule at h
    refine named_collect h.symm (fun e a ha i hi => ?_)
    split at ha
    · injection ha with ha
      subst ha
      obtain ⟨d, _, rfl⟩ := List.mem_map.1 hi
      rfl
    · injection ha with ha; subst ha; cases hi
    · cases ha
  · injection h with h
    subst h
    intro i hi
    unfold performanceRule at hi
    rcases List.mem_append.1 hi with hi | hi
    · rw [mem_if_one hi]
    · obtain ⟨d, _, hi⟩ := List.mem_flatMap.1 hi
      unfold complexEvent at hi
      rcases List.mem_append.1 hi with hi | hi <;> rw [mem_if_one hi]
  · injection h with h
    subst h
    intro i hi
    unfold encodingRule at hi
    rcases List.mem_append.1 hi with hi | hi
    · obtain ⟨e, _, hi⟩ := List.mem_flatMap.1 hi
      unfold eventEncoding at hi
      simp only [List.mem_append] at hi
      rcases hi with (hi | hi) | hi <;> rw [mem_if_one hi]
    · obtain ⟨e, _, hi⟩ := List.mem_flatMap.1 hi
      unfold infoEncoding at hi
      rw [mem_if_one hi]
  · unfold accessRule at h
    refine named_collect h.symm (fun e a ha => ?_)
    refine named_both ha (fun x hx => named_both hx (fun y hy i hi => ?_) (fun y hy i hi => ?_)) (fun x hx i hi => ?_)
    · unfold shortCheck at hy
      split at hy
      · injection hy with hy; subst hy; rw [mem_if_one hi]
      · injection hy with hy; subst hy; cases hi
      · cases hy
      · cases hy
    · unfold speedCheck at hy
      split at hy
      · split at hy
        · split at hy
          · injection hy with hy; subst hy; rw [mem_if_one hi]
          · injection hy with hy; subst hy; cases hi
          · cases hy
        · injection hy with hy; subst hy; cases hi
      · injection hy with hy; subst hy; cases hi
      · cases hy
      · cases hy
    · unfold lengthCheck at hx
      split at hx
      · injection hx with hx; subst hx; rw [mem_if_one hi]
      · injection hx with hx; subst hx; cases hi
      · cases hx

theorem default_gathered {rules : List (Str × Outcome (List Issue))} :
    ∀ {acc out : List Issue}, runLoop Config.default acc rules = .ok out → ∃ all, gathered Config.default rules = .ok all ∧ out = acc ++ all := by
  induction rules with
  | nil =>
    intro acc out h
    injection h with h
    exact ⟨[], rfl, by simp [h]⟩
  | cons p rest ih =>
    obtain ⟨id, r⟩ := p
    intro acc out h
    have hd : Config.default.runs id = true := by simp [Config.default, Config.runs]
    simp only [runLoop] at h
    rw [if_pos hd] at h
    rw [gathered, if_pos hd]
    cases r with
    | err => cases h
    | panic => cases h
    | ok l =>
      simp only at h
      rw [if_neg (by simp [Config.default])] at h
      obtain ⟨all, h1, h2⟩ := ih h
      exact ⟨l.filter (fun i => decide (Config.default.minSeverity.rank ≤ i.severity.rank)) ++ all, by simp only [both, pick, h1],
        by rw [h2, List.append_assoc]⟩

theorem firstEvents_spec {secs : List Parser.Section} {ev : List Event} (h : FirstEvents secs ev) : firstEvents secs = ev := by
  obtain ⟨pre, l, post, rfl, hp, rfl⟩ := h
  induction pre with
  | nil => rfl
  | cons s pre ih =>
    have ih := ih (fun t ht => hp t (List.mem_cons_of_mem _ ht))
    cases s with
    | events m => exact absurd rfl (hp _ (by simp) m)
    | _ => simpa [firstEvents] using ih

theorem firstStyles_spec {secs : List Parser.Section} {st : List Style} (h : FirstStyles secs st) : firstStyles secs = st := by
  obtain ⟨pre, l, post, rfl, hp, rfl⟩ := h
  induction pre with
  | nil => rfl
  | cons s pre ih =>
    have ih := ih (fun t ht => hp t (List.mem_cons_of_mem _ ht))
    cases s with
    | styles m => exact absurd rfl (hp _ (by simp) m)
    | _ => simpa [firstStyles] using ih

theorem gathered_rule {rules : List (Str × Outcome (List Issue))} (hn : Named rules) (hd : (rules.map (·.1)).Nodup) {all : List Issue}
    (h : gathered Config.default rules = .ok all) :
    (∀ i ∈ all, i.rule ∈ rules.map (·.1)) ∧
    ∀ id r, (id, r) ∈ rules → r = .ok (ofRule id all) := by
  induction rules generalizing all with
  | nil =>
    injection h with h
    subst h
    exact ⟨by simp, by simp⟩
  | cons p rest ih =>
    obtain ⟨id, r⟩ := p
    have hr : Config.default.runs id = true := by simp [Config.default, Config.runs]
    rw [gathered, if_pos hr] at h
    cases r with
    | err => simp [both, pick] at h
    | panic => simp [both, pick] at h
    | ok l =>
      simp only [both, pick] at h
      cases hg : gathered Config.default rest with
      | err => rw [hg] at h; cases h
      | panic => rw [hg] at h; cases h
      | ok b =>
        rw [hg] at h
        injection h with h
        have e : l.filter (fun i => decide (Config.default.minSeverity.rank ≤ i.severity.rank)) = l := by
          rw [List.filter_eq_self]
          intro a _
          simp [Config.default, Severity.rank]
        rw [e] at h
        rw [List.map_cons, List.nodup_cons] at hd
        obtain ⟨i1, i2⟩ := ih (fun i m hm => hn i m (List.mem_cons_of_mem _ hm)) hd.2 hg
        have hl := hn id l (by simp)
        subst h
        refine ⟨?_, ?_⟩
        · intro i hi
          rw [List.map_cons, List.mem_cons]
          rcases List.mem_append.1 hi with hi | hi
          · exact .inl (hl i hi)
          · exact .inr (i1 i hi)
        · intro id' r' hm
          unfold ofRule
          rw [List.filter_append]
          rcases List.mem_cons.1 hm with hm | hm
          · injection hm with h1 h2
            subst h1 h2
            have e1 : l.filter (fun i => decide (i.rule = id')) = l := by
              rw [List.filter_eq_self]
              intro a ha
              simpa using hl a ha
            have e2 : b.filter (fun i => decide (i.rule = id')) = [] := by
              rw [List.filter_eq_nil_iff]
              intro a ha
              simp only [decide_eq_true_eq]
              intro hc
              exact hd.1 (hc ▸ i1 a ha)
            rw [e1, e2, List.append_nil]
          · have hne : id' ∈ rest.map (·.1) := List.mem_map.2 ⟨_, hm, rfl⟩
            have e1 : l.filter (fun i => decide (i.rule = id')) = [] := by
              rw [List.filter_eq_nil_iff]
              intro a ha
              simp only [decide_eq_true_eq]
              intro hc
              exact hd.1 ((hl a ha).symm.trans hc ▸ hne)
            rw [e1, List.nil_append]
            exact i2 id' r' hm

/-- What the linter says, rule by rule. -/
theorem lint_rule {alone child : Style → Bool} {secs : List Parser.Section} {l : List Issue} (h : lint alone child Config.default secs = .ok l) :
    ∃ inf, infos (firstEvents secs) = .ok inf ∧ ∀ id r, (id, r) ∈ allRules alone child secs inf → r = .ok (ofRule id l) := by
  unfold lint at h
  cases hi : infos (firstEvents secs) with
  | err => rw [hi] at h; cases h
  | panic => rw [hi] at h; cases h
  | ok inf =>
    rw [hi] at h
    simp only at h
    obtain ⟨all, h1, h2⟩ := default_gathered h
    rw [List.nil_append] at h2
    subst h2
    exact ⟨inf, rfl, (gathered_rule (named_rules alone child secs inf) (by unfold allRules; simp only [List.map_cons, List.map_nil]; decide) h1).2⟩

theorem timesAll_ok {l : List Event} {iv : List (Nat × Nat)} (hl : l.length = iv.length)
    (h : ∀ (i : Nat) (e : Event) (p : Nat × Nat), l[i]? = some e → iv[i]? = some p → (TimeText e.start p.1 ∧ p.1 < 2 ^ 32) ∧ TimeText e.stop p.2 ∧ p.2 < 2 ^ 32) :
    timesAll l = .ok iv := by
  induction l generalizing iv with
  | nil => cases iv with
    | nil => rfl
    | cons => simp at hl
  | cons e l ih =>
    cases iv with
    | nil => simp at hl
    | cons p iv =>
      have h0 := h 0 e p rfl rfl
      rw [timesAll, (Props.C02_parse_accepts_iff _ _).2 h0.1]
      simp only
      rw [(Props.C02_parse_accepts_iff _ _).2 h0.2]
      simp only
      rw [ih (by simpa using hl) (fun i => h (i + 1))]

theorem overlapIssue_ok {l : List Event} {ps : List (Nat × Nat)} (h : ∀ p ∈ ps, p.1 < l.length ∧ p.2 < l.length) :
    ∃ out, collect (overlapIssue l) ps = .ok out ∧
      out.map some = ps.map (overlapOf l) := by
  induction ps with
  | nil => exact ⟨[], rfl, rfl⟩
  | cons p ps ih =>
    obtain ⟨out, h1, h2⟩ := ih (fun q hq => h q (List.mem_cons_of_mem _ hq))
    have hp := h p (by simp)
    rw [collect, overlapIssue, List.getElem?_eq_getElem hp.1, List.getElem?_eq_getElem hp.2]
    simp only [h1]
    refine ⟨_, rfl, ?_⟩
    rw [List.map_cons, overlapOf, List.getElem?_eq_getElem hp.1, List.getElem?_eq_getElem hp.2, ← h2]
    rfl

/-! ## Validation -/

theorem level_eq (l : Level) : l.rank = levelNumber l := by cases l <;> rfl

/-- The operations on a validator. -/
inductive Op where
  | validate (now : Nat) (content : Str)
  | force (now : Nat) (content : Str)
  | clear
  | setConfig (c : VConfig)

/-- A call: what it returns, if anything, and the validator afterwards.  After a failure the validator is as before, apart
from `force`, which has cleared the cache. -/
def call (alone child : Style → Bool) (v : Validator) : Op → Option Result × Validator
  | .validate now s => match v.validate alone child now s with
    | .ok (r, w) => (some r, w)
    | _ => (none, v)
  | .force now s => match v.force alone child now s with
    | .ok (r, w) => (some r, w)
    | _ => (none, { v with cached := none })
  | .clear => (none, v.clear)
  | .setConfig c => (none, v.setConfig c)

/-- Several calls. -/
def calls (alone child : Style → Bool) (v : Validator) : List Op → Validator
  | [] => v
  | o :: l => calls alone child (call alone child v o).2 l

/-- The cached result belongs to some content with the stored hash. -/
def Inv (alone child : Style → Bool) (v : Validator) : Prop :=
  ∀ r, v.cached = some r → ∃ s, Lint.hash s = v.hash ∧ fresh alone child v.config s = .ok r

theorem validate_spec {alone child : Style → Bool} {v w : Validator} {now : Nat} {s : Str} {r : Result} (hi : Inv alone child v)
    (h : v.validate alone child now s = .ok (r, w)) :
    Inv alone child w ∧ w.config = v.config ∧ ∃ s', Lint.hash s' = Lint.hash s ∧ fresh alone child v.config s' = .ok r := by
  unfold Validator.validate at h
  by_cases hh : v.hit (Lint.hash s) now = true
  · rw [if_pos hh] at h
    cases hc : v.cached with
    | none => rw [hc] at h; cases h
    | some r' =>
      rw [hc] at h
      injection h with h
      injection h with h1 h2
      subst h1 h2
      obtain ⟨s', e1, e2⟩ := hi _ hc
      refine ⟨hi, rfl, s', ?_, e2⟩
      unfold Validator.hit at hh
      by_cases hx : (v.cached.isNone || decide (v.hash ≠ Lint.hash s)) = true
      · rw [if_pos hx] at hh; cases hh
      · simp at hx
        rw [e1, hx.2]
  · rw [if_neg hh] at h
    cases hf : fresh alone child v.config s with
    | err => rw [hf] at h; cases h
    | panic => rw [hf] at h; cases h
    | ok r' =>
      rw [hf] at h
      injection h with h
      injection h with h1 h2
      subst h1 h2
      refine ⟨?_, rfl, s, rfl, hf⟩
      intro r hr
      injection hr with hr
      subst hr
      exact ⟨s, rfl, hf⟩

theorem force_inv {alone child : Style → Bool} (v : Validator) : Inv alone child { v with cached := none } := by
  intro r hr; cases hr

theorem call_inv {alone child : Style → Bool} {v : Validator} (hi : Inv alone child v) (o : Op) :
    Inv alone child (call alone child v o).2 := by
  cases o with
  | validate now s =>
    simp only [call]
    cases h : v.validate alone child now s with
    | err => exact hi
    | panic => exact hi
    | ok p => exact (validate_spec hi h).1
  | force now s =>
    simp only [call]
    cases h : v.force alone child now s with
    | err => exact force_inv v
    | panic => exact force_inv v
    | ok p => exact (validate_spec (force_inv v) h).1
  | clear => intro r hr; cases hr
  | setConfig c => intro r hr; cases hr

theorem calls_inv {alone child : Style → Bool} (l : List Op) : ∀ {v : Validator}, Inv alone child v → Inv alone child (calls alone child v l) := by
  induction l with
  | nil => intro v h; exact h
  | cons o l ih => intro v h; exact ih (call_inv h o)

end Verif.Lint
