import Verif.Spec.Prepare
import Verif.Lemmas.Resolved
import Verif.Lemmas.Map
/-!
# C152 — what the renderer takes from a script
-/
namespace Verif.Props.Prepare
open Verif Verif.Prepare Verif.Spec Verif.Spec.Prepare
open Verif.Ast (Style)
open Verif.Parser (Section)
open Verif.Spec.Resolved (Resolution FirstField Whole)

/-! ## Settings -/

/-- The settings after the sections. -/
theorem set_foldl (num : Str → Option Rat) (shw : Rat → Str) (p : Pipe) (l : List (Style × Parser.Span)) :
    (l.foldl (fun p s => addStyle num shw p s.1) p).set = p.set := by
  induction l generalizing p with
  | nil => rfl
  | cons a l ih => rw [List.foldl_cons, ih]; rfl

def after (lower : Str → Str) (s : Settings) : Section → Settings
  | .info f _ => readInfo lower f s
  | _ => s

theorem set_section (num : Str → Option Rat) (shw : Rat → Str) (lower : Str → Str) (p : Pipe) (s : Section) :
    (readSection num shw lower p s).set = after lower p.set s := by
  cases s <;> simp only [readSection, after, set_foldl]

theorem set_sections (num : Str → Option Rat) (shw : Rat → Str) (lower : Str → Str) (p : Pipe) (l : List Section) :
    (l.foldl (readSection num shw lower) p).set = l.foldl (after lower) p.set := by
  induction l generalizing p with
  | nil => rfl
  | cons a l ih => rw [List.foldl_cons, ih, List.foldl_cons, set_section]

theorem latest_fold {α : Type} {Gives : Section → α → Prop} (lower : Str → Str) (proj : Settings → α)
    (h1 : ∀ s t v, Gives t v → proj (after lower s t) = v)
    (h2 : ∀ s t, (∀ v, ¬ Gives t v) → proj (after lower s t) = proj s) (s : Settings) (l : List Section) :
    Latest Gives (proj s) l (proj (l.foldl (after lower) s)) := by
  induction l generalizing s with
  | nil => exact .inr ⟨fun _ h => (List.not_mem_nil h).elim, rfl⟩
  | cons a l ih =>
    rw [List.foldl_cons]
    rcases ih (after lower s a) with ⟨x, t, b, e, g, hb⟩ | ⟨hn, e⟩
    · exact .inl ⟨a :: x, t, b, by rw [e]; rfl, by exact g, hb⟩
    · rw [e]
      by_cases hg : ∃ v, Gives a v
      · obtain ⟨v, hv⟩ := hg
        exact .inl ⟨[], a, l, rfl, by rw [h1 _ _ _ hv]; exact hv, hn⟩
      · have hg' : ∀ v, ¬ Gives a v := fun v hv => hg ⟨v, hv⟩
        refine .inr ⟨?_, h2 _ _ hg'⟩
        intro t ht
        rcases List.mem_cons.mp ht with rfl | ht
        · exact hg'
        · exact hn t ht

theorem latest_unique {α : Type} {Gives : Section → α → Prop} (hu : ∀ t v w, Gives t v → Gives t w → v = w) {old : α}
    {l : List Section} {v w : α} (h1 : Latest Gives old l v) (h2 : Latest Gives old l w) : v = w := by
  rcases h1 with ⟨a, s, b, e, g, hb⟩ | ⟨hn, rfl⟩
  · rcases h2 with ⟨a', s', b', e', g', hb'⟩ | ⟨hn', -⟩
    · rw [e] at e'
      rcases List.append_eq_append_iff.mp e' with ⟨c, e1, e2⟩ | ⟨c, e1, e2⟩
      · cases c with
        | nil => rw [List.nil_append] at e2; cases e2; exact hu _ _ _ g g'
        | cons x c =>
          rw [List.cons_append] at e2
          cases e2
          exact (hb s' (by simp) w g').elim
      · cases c with
        | nil => rw [List.nil_append] at e2; cases e2; exact hu _ _ _ g g'
        | cons x c =>
          rw [List.cons_append] at e2
          cases e2
          exact (hb' s (by simp) v g).elim
    · exact (hn' s (by rw [e]; simp) v g).elim
  · rcases h2 with ⟨a', s', b', e', g', hb'⟩ | ⟨-, rfl⟩
    · exact (hn s' (by rw [e']; simp) w g').elim
    · rfl

theorem play1 (lower : Str → Str) (s : Settings) (t : Section) (v : Rat × Rat) (h : GivesPlay t v) : (after lower s t).play = v := by
  obtain ⟨f, sp, x, y, rfl, hr, rfl⟩ := h
  simp only [after, readInfo, Resolved.resolution_iff.mpr hr]

theorem play2 (lower : Str → Str) (s : Settings) (t : Section) (h : ∀ v, ¬ GivesPlay t v) : (after lower s t).play = s.play := by
  cases t with
  | info f sp =>
    simp only [after, readInfo]
    cases e : Resolved.resolution f "PlayResX".toList "PlayResY".toList with
    | none => rfl
    | some r => exact (h _ ⟨f, sp, r.1, r.2, rfl, Resolved.resolution_iff.mp e, rfl⟩).elim
  | _ => rfl

theorem layout1 (lower : Str → Str) (s : Settings) (t : Section) (v : Option (Rat × Rat)) (h : GivesLayout t v) :
    (after lower s t).layout = v := by
  obtain ⟨f, sp, x, y, rfl, hr, rfl⟩ := h
  simp only [after, readInfo, Resolved.resolution_iff.mpr hr]

theorem layout2 (lower : Str → Str) (s : Settings) (t : Section) (h : ∀ v, ¬ GivesLayout t v) :
    (after lower s t).layout = s.layout := by
  cases t with
  | info f sp =>
    simp only [after, readInfo]
    cases e : Resolved.resolution f "LayoutResX".toList "LayoutResY".toList with
    | none => rfl
    | some r => exact (h _ ⟨f, sp, r.1, r.2, rfl, Resolved.resolution_iff.mp e, rfl⟩).elim
  | _ => rfl

theorem scaled1 {lower : Str → Str} (hl : Lowers lower) (s : Settings) (t : Section) (v : Bool) (h : GivesScaled t v) :
    (after lower s t).scaled = v := by
  obtain ⟨f, sp, x, rfl, hf, hv⟩ := h
  simp only [after, readInfo, Resolved.field_iff.mpr hf]
  rw [← hl x] at hv
  cases v
  · simp [hv.mp rfl]
  · have : ¬ lower x = "no".toList := fun e => by simpa using hv.mpr e
    simpa using this

theorem scaled2 {lower : Str → Str} (s : Settings) (t : Section) (h : ∀ v, ¬ GivesScaled t v) :
    (after lower s t).scaled = s.scaled := by
  cases t with
  | info f sp =>
    simp only [after, readInfo]
    cases e : Resolved.field f "ScaledBorderAndShadow".toList with
    | none => rfl
    | some r =>
      exact (h (decide (r ∉ ["no".toList, "No".toList, "nO".toList, "NO".toList]))
        ⟨f, sp, r, rfl, Resolved.field_iff.mp e, by simp only [decide_eq_false_iff_not, Classical.not_not]⟩).elim
  | _ => rfl

theorem wrap_gives (f : List (Str × Str)) (sp : Parser.Span) : GivesWrap (.info f sp) (InfoOps.parsedWrap f) := by
  refine ⟨f, sp, rfl, ?_⟩
  unfold InfoOps.parsedWrap
  cases e : Resolved.field f "WrapStyle".toList with
  | none =>
    refine .inr ⟨?_, rfl⟩
    intro t m ht
    rw [Resolved.field_iff.mpr ht] at e
    cases e
  | some t =>
    rw [Option.bind_some]
    cases e2 : Segment.parseU8 t with
    | none =>
      refine .inr ⟨?_, rfl⟩
      intro t' m ht hm
      rw [Resolved.field_iff.mpr ht] at e
      cases e
      have := Resolved.whole_iff.mpr hm
      unfold Segment.parseU8 at e2
      rw [this] at e2
      cases e2
    | some n => exact .inl ⟨t, Resolved.field_iff.mp e, Resolved.whole_iff.mp e2⟩

theorem first_unique {f : List (Str × Str)} {k v w : Str} (h1 : FirstField f k v) (h2 : FirstField f k w) : v = w := by
  rw [← Resolved.field_iff] at h1 h2
  rw [h1] at h2
  cases h2
  rfl

theorem wrap_unique {t : Section} {v w : Nat} (h1 : GivesWrap t v) (h2 : GivesWrap t w) : v = w := by
  obtain ⟨f, sp, rfl, h1⟩ := h1
  obtain ⟨f', sp', e, h2⟩ := h2
  cases e
  rcases h1 with ⟨t, ht, hv⟩ | ⟨hn, rfl⟩
  · rcases h2 with ⟨t', ht', hv'⟩ | ⟨hn', rfl⟩
    · cases first_unique ht ht'
      have a := Resolved.whole_iff.mpr hv
      have b := Resolved.whole_iff.mpr hv'
      rw [a] at b
      cases b
      rfl
    · exact (hn' t v ht hv).elim
  · rcases h2 with ⟨t', ht', hv'⟩ | ⟨hn', rfl⟩
    · exact (hn t' w ht' hv').elim
    · rfl

theorem wrap1 (lower : Str → Str) (s : Settings) (t : Section) (v : Nat) (h : GivesWrap t v) : (after lower s t).wrap = v := by
  obtain ⟨f, sp, rfl, h'⟩ := h
  exact wrap_unique (wrap_gives f sp) ⟨f, sp, rfl, h'⟩

theorem wrap2 (lower : Str → Str) (s : Settings) (t : Section) (h : ∀ v, ¬ GivesWrap t v) : (after lower s t).wrap = s.wrap := by
  cases t with
  | info f sp => exact (h _ (wrap_gives f sp)).elim
  | _ => rfl

theorem inForce {lower : Str → Str} (hl : Lowers lower) (s : Settings) (l : List Section) :
    InForce s l (l.foldl (after lower) s) where
  play := latest_fold lower (·.play) (play1 lower) (play2 lower) s l
  layout := latest_fold lower (·.layout) (layout1 lower) (layout2 lower) s l
  scaled := latest_fold lower (·.scaled) (scaled1 hl) scaled2 s l
  wrap := latest_fold lower (·.wrap) (wrap1 lower) (wrap2 lower) s l

theorem inForce_unique {s : Settings} {lower : Str → Str} (hl : Lowers lower) {l : List Section} {v : Settings} (h : InForce s l v) :
    v = l.foldl (after lower) s := by
  have h' := inForce hl s l
  have a : v.play = _ := latest_unique (fun t v w h1 h2 => by
    rw [← play1 lower s t v h1, play1 lower s t w h2]) h.play h'.play
  have b : v.layout = _ := latest_unique (fun t v w h1 h2 => by
    rw [← layout1 lower s t v h1, layout1 lower s t w h2]) h.layout h'.layout
  have c : v.scaled = _ := latest_unique (fun t v w h1 h2 => by
    rw [← scaled1 hl s t v h1, scaled1 hl s t w h2]) h.scaled h'.scaled
  have d : v.wrap = _ := latest_unique (Gives := GivesWrap) (fun t v w h1 h2 => wrap_unique h1 h2) h.wrap h'.wrap
  cases v
  simp only at a b c d
  rw [a, b, c, d]

theorem prepare_set (num : Str → Option Rat) (shw : Rat → Str) (lower : Str → Str) (pick : Map Str Style → Option Style) (old : Pipe)
    (l : List Section) : (prepare num shw lower pick old l).set = l.foldl (after lower) old.set := by
  unfold prepare
  simp only []
  split
  · exact set_sections ..
  · exact set_sections ..

/-- **C152.** After preparing a script the play resolution, the layout resolution, the treatment of borders and shadows and the
wrapping are each those of the last script information section that gives them, and the earlier ones if none does. -/
theorem C152_settings (num : Str → Option Rat) (shw : Rat → Str) (lower : Str → Str) (hl : Lowers lower)
    (pick : Map Str Style → Option Style) (old : Pipe) (sections : List Section) (v : Settings) :
    InForce old.set sections v ↔ (prepare num shw lower pick old sections).set = v := by
  rw [prepare_set]
  exact ⟨fun h => (inForce_unique hl h).symm, fun h => h ▸ inForce hl _ _⟩

/-- **C152 (start).** A new renderer draws scripts that give no script information for 1920×1080 points, or for the size it was made
for, with scaled borders, without a layout resolution and with wrapping 0. -/
theorem C152_fresh (num : Str → Option Rat) (shw : Rat → Str) (lower : Str → Str) (pick : Map Str Style → Option Style)
    (sections : List Section) (h : ∀ s ∈ sections, ∀ f sp, s ≠ .info f sp) (w d : Rat) :
    (prepare num shw lower pick new sections).set = { play := (1920, 1080), layout := none, scaled := true, wrap := 0 } ∧
    (prepare num shw lower pick (withDimensions w d) sections).set = { play := (w, d), layout := none, scaled := true, wrap := 0 } := by
  have : ∀ (l : List Section) (s : Settings), (∀ s ∈ l, ∀ f sp, s ≠ .info f sp) → l.foldl (after lower) s = s := by
    intro l
    induction l with
    | nil => exact fun _ _ => rfl
    | cons a l ih =>
      intro s hl
      rw [List.foldl_cons, ih _ (fun x hx => hl x (by simp [hx]))]
      cases a with
      | info f sp => exact (hl _ (by simp) f sp rfl).elim
      | _ => rfl
  rw [prepare_set, prepare_set, this _ _ h, this _ _ h]
  exact ⟨rfl, rfl⟩

/-! ## Styles -/

theorem factor_iff {l : Option Rat} {p : Rat} (hz : ∀ x, l = some x → x ≠ 0) (k : Rat) :
    ((l = none ∧ k = 1) ∨ ∃ x, l = some x ∧ k * x = p) ↔ k = factor l p := by
  cases l with
  | none => simp [factor]
  | some x =>
    have hx := hz x rfl
    simp only [reduceCtorEq, false_and, Option.some.injEq, false_or, factor]
    constructor
    · rintro ⟨y, rfl, e⟩
      by_cases h : x = p
      · rw [if_neg (by simpa using h)]
        subst h
        have : (k - 1) * x = 0 := by grind
        rcases Rat.mul_eq_zero.mp this with h | h
        · grind
        · exact absurd h hx
      · rw [if_pos h, ← e]
        exact (Rat.mul_div_cancel hx).symm
    · intro e
      refine ⟨x, rfl, ?_⟩
      by_cases h : x = p
      · rw [if_neg (by simpa using h)] at e
        rw [e, Rat.one_mul, h]
      · rw [if_pos h] at e
        rw [e, Rat.div_mul_cancel hx]

theorem times_iff {num : Str → Option Rat} {shw : Rat → Str} {k : Rat} {t t' : Str} :
    Times num shw k t t' ↔ t' = rescale num shw k t := by
  unfold Times rescale
  cases num t <;> simp

theorem fitted_iff {num : Str → Option Rat} {shw : Rat → Str} {set : Settings} (hz : ∀ v, set.layout = some v → v.1 ≠ 0 ∧ v.2 ≠ 0)
    {s s' : Style} : Fitted num shw set s s' ↔ s' = fit num shw set s := by
  have hf : ∀ kx ky, Factors set kx ky ↔ kx = factor (set.layout.map (·.1)) set.play.1 ∧ ky = factor (set.layout.map (·.2)) set.play.2 := by
    intro kx ky
    have h1 : ∀ x, set.layout.map (·.1) = some x → x ≠ 0 := by
      intro x h
      obtain ⟨v, hv, rfl⟩ := Option.map_eq_some_iff.mp h
      exact (hz v hv).1
    have h2 : ∀ x, set.layout.map (·.2) = some x → x ≠ 0 := by
      intro x h
      obtain ⟨v, hv, rfl⟩ := Option.map_eq_some_iff.mp h
      exact (hz v hv).2
    rw [← factor_iff h1 kx, ← factor_iff h2 ky]
    unfold Factors
    cases e : set.layout with
    | none => simp
    | some v =>
      have := hz v e
      constructor
      · rintro (⟨h, -⟩ | ⟨lx, ly, h, -, -, a, b⟩)
        · cases h
        · cases h
          exact ⟨.inr ⟨_, rfl, a⟩, .inr ⟨_, rfl, b⟩⟩
      · rintro ⟨⟨h, -⟩ | ⟨x, hx, a⟩, ⟨h, -⟩ | ⟨y, hy, b⟩⟩
        · cases h
        · cases h
        · cases h
        · simp only [Option.map_some, Option.some.injEq] at hx hy
          subst hx hy
          exact .inr ⟨v.1, v.2, rfl, this.1, this.2, a, b⟩
  unfold Fitted fit
  simp only [hf, times_iff]
  constructor
  · rintro ⟨kx, ky, ⟨rfl, rfl⟩, ⟨h1, h2, rfl⟩ | ⟨h, size, l, r, v, o, d, sp, rfl, rfl, rfl, rfl, rfl, ho, rfl⟩⟩
    · rw [if_neg (by simp [h1, h2])]
    · rw [if_pos (by rw [Classical.not_and_iff_not_or_not] at h; exact h)]
      by_cases hs : set.scaled = true
      · rw [if_pos hs] at ho
        rw [if_pos hs, if_pos hs, ho.1, ho.2]
      · rw [if_neg hs] at ho
        rw [if_neg hs, if_neg hs, ho.1, ho.2]
  · intro e
    refine ⟨_, _, ⟨rfl, rfl⟩, ?_⟩
    by_cases h : factor (set.layout.map (·.1)) set.play.1 = 1 ∧ factor (set.layout.map (·.2)) set.play.2 = 1
    · rw [if_neg (by simp [h.1, h.2])] at e
      exact .inl ⟨h.1, h.2, e⟩
    · rw [if_pos (by rw [Classical.not_and_iff_not_or_not] at h; exact h)] at e
      refine .inr ⟨h, _, _, _, _, _, _, _, rfl, rfl, rfl, rfl, rfl, ?_, e⟩
      by_cases hs : set.scaled = true
      · rw [if_pos hs, if_pos hs, if_pos hs]
        exact ⟨rfl, rfl⟩
      · rw [if_neg hs, if_neg hs, if_neg hs]
        exact ⟨rfl, rfl⟩

theorem get_other (num : Str → Option Rat) (shw : Rat → Str) (n : Str) (l : List (Style × Parser.Span)) (p : Pipe)
    (h : ∀ q ∈ l, q.1.name ≠ n) : (l.foldl (fun p s => addStyle num shw p s.1) p).styles.get n = p.styles.get n := by
  induction l generalizing p with
  | nil => rfl
  | cons a l ih =>
    rw [List.foldl_cons, ih _ (fun q hq => h q (by simp [hq]))]
    exact Map.get_insert_ne (fun e => h a (by simp) e.symm)

theorem default_other (num : Str → Option Rat) (shw : Rat → Str) (l : List (Style × Parser.Span)) (p : Pipe)
    (h : ∀ q ∈ l, ¬ IsDefault q.1.name) : (l.foldl (fun p s => addStyle num shw p s.1) p).default = p.default := by
  induction l generalizing p with
  | nil => rfl
  | cons a l ih =>
    rw [List.foldl_cons, ih _ (fun q hq => h q (by simp [hq]))]
    exact if_neg (h a (by simp))

theorem get_others (num : Str → Option Rat) (shw : Rat → Str) (lower : Str → Str) (n : Str) (l : List Section) (p : Pipe)
    (h : ∀ m, Section.styles m ∈ l → ∀ q ∈ m, q.1.name ≠ n) :
    (l.foldl (readSection num shw lower) p).styles.get n = p.styles.get n := by
  induction l generalizing p with
  | nil => rfl
  | cons a l ih =>
    rw [List.foldl_cons, ih _ (fun m hm => h m (by simp [hm]))]
    cases a with
    | styles m => exact get_other num shw n m p (h m (by simp))
    | _ => rfl

theorem default_others (num : Str → Option Rat) (shw : Rat → Str) (lower : Str → Str) (l : List Section) (p : Pipe)
    (h : ∀ m, Section.styles m ∈ l → ∀ q ∈ m, ¬ IsDefault q.1.name) :
    (l.foldl (readSection num shw lower) p).default = p.default := by
  induction l generalizing p with
  | nil => rfl
  | cons a l ih =>
    rw [List.foldl_cons, ih _ (fun m hm => h m (by simp [hm]))]
    cases a with
    | styles m => exact default_other num shw m p (h m (by simp))
    | _ => rfl

theorem get_last {num : Str → Option Rat} {shw : Rat → Str} {lower : Str → Str} {n : Str} {l before : List Section} {s : Style}
    (h : LastStyle (· = n) l before s) (p : Pipe) :
    (l.foldl (readSection num shw lower) p).styles.get n = some (fit num shw (before.foldl (after lower) p.set) s) := by
  obtain ⟨m, rest, a, sp, b, rfl, rfl, hn, hb, hr⟩ := h
  rw [List.foldl_append, List.foldl_cons, get_others _ _ _ _ _ _ hr, readSection, List.foldl_append, List.foldl_cons,
    get_other _ _ _ _ _ hb, addStyle]
  simp only
  rw [← hn, Map.get_insert_self, set_foldl, set_sections]

theorem default_last {num : Str → Option Rat} {shw : Rat → Str} {lower : Str → Str} {l before : List Section} {s : Style}
    (h : LastStyle IsDefault l before s) (p : Pipe) :
    (l.foldl (readSection num shw lower) p).default = some (fit num shw (before.foldl (after lower) p.set) s) := by
  obtain ⟨m, rest, a, sp, b, rfl, rfl, hn, hb, hr⟩ := h
  rw [List.foldl_append, List.foldl_cons, default_others _ _ _ _ _ hr, readSection, List.foldl_append, List.foldl_cons,
    default_other _ _ _ _ hb, addStyle]
  simp only
  unfold IsDefault at hn
  rw [if_pos hn, set_foldl, set_sections]

theorem split_last {α : Type} (P : α → Prop) (l : List α) (h : ∃ x ∈ l, P x) :
    ∃ a x b, l = a ++ x :: b ∧ P x ∧ ∀ y ∈ b, ¬ P y := by
  induction l with
  | nil => obtain ⟨x, hx, -⟩ := h; cases hx
  | cons y l ih =>
    by_cases hl : ∃ x ∈ l, P x
    · obtain ⟨a, x, b, rfl, hx, hb⟩ := ih hl
      exact ⟨y :: a, x, b, rfl, hx, hb⟩
    · obtain ⟨x, hx, hp⟩ := h
      rcases List.mem_cons.mp hx with rfl | hx
      · exact ⟨[], x, l, rfl, hp, fun z hz hpz => hl ⟨z, hz, hpz⟩⟩
      · exact (hl ⟨x, hx, hp⟩).elim

theorem last_exists (P : Str → Prop) (l : List Section) (h : ∃ m, Section.styles m ∈ l ∧ ∃ q ∈ m, P q.1.name) :
    ∃ before s, LastStyle P l before s := by
  obtain ⟨a, x, b, rfl, ⟨m, rfl, q⟩, hb⟩ := split_last (fun s => ∃ m, s = Section.styles m ∧ ∃ q ∈ m, P q.1.name) l
    (by obtain ⟨m, h1, h2⟩ := h; exact ⟨_, h1, m, rfl, h2⟩)
  obtain ⟨c, y, d, rfl, hy, hd⟩ := split_last (fun q : Style × Parser.Span => P q.1.name) m q
  exact ⟨a, y.1, _, b, c, y.2, d, rfl, rfl, hy, hd, fun m hm q hq hp => hb _ hm ⟨m, rfl, q, hq, hp⟩⟩

theorem prepare_styles (num : Str → Option Rat) (shw : Rat → Str) (lower : Str → Str) (pick : Map Str Style → Option Style) (old : Pipe)
    (l : List Section) : (prepare num shw lower pick old l).styles =
      (l.foldl (readSection num shw lower) { old with styles := [], default := none }).styles := by
  unfold prepare
  simp only []
  split <;> rfl

theorem sound_prefix {old : Settings} {lower : Str → Str} {l : List Section} (h : Sound old l) :
    ∀ v, (l.foldl (after lower) old).layout = some v → v.1 ≠ 0 ∧ v.2 ≠ 0 := by
  intro v hv
  rcases latest_fold lower (·.layout) (layout1 lower) (layout2 lower) old l with ⟨a, s, b, e, g, -⟩ | ⟨-, e⟩
  · simp only [hv] at g
    exact h.2 s (by rw [e]; simp) v g
  · exact h.1 v (e ▸ hv)

theorem sound_before {P : Str → Prop} {old : Settings} {l before : List Section} {s : Style} (h : Sound old l)
    (hs : LastStyle P l before s) : Sound old before := by
  obtain ⟨m, rest, a, sp, b, rfl, -⟩ := hs
  exact ⟨h.1, fun t ht => h.2 t (by simp [ht])⟩

/-- **C152.** The style kept under a name is the last one of the script that has this name, brought from the layout to the play
resolution by the settings in force before its section: sizes, vertical margins, borders and shadows by the vertical factor,
horizontal margins and spacing by the horizontal one, borders and shadows only if they are to be scaled.  No other name has a
style.  Layout resolutions of zero are excluded. -/
theorem C152_styles (num : Str → Option Rat) (shw : Rat → Str) (lower : Str → Str) (hl : Lowers lower)
    (pick : Map Str Style → Option Style) (old : Pipe) (sections : List Section) (hz : Sound old.set sections) (n : Str) (s' : Style) :
    (prepare num shw lower pick old sections).styles.get n = some s' ↔
      ∃ before s set, LastStyle (· = n) sections before s ∧ InForce old.set before set ∧ Fitted num shw set s s' := by
  rw [prepare_styles]
  constructor
  · intro h
    have : ∃ m, Section.styles m ∈ sections ∧ ∃ q ∈ m, q.1.name = n := by
      apply Classical.byContradiction
      intro hn
      rw [get_others _ _ _ _ _ _ (fun m hm q hq e => hn ⟨m, hm, q, hq, e⟩)] at h
      cases h
    obtain ⟨before, s, hs⟩ := last_exists (· = n) sections this
    rw [get_last hs] at h
    cases h
    exact ⟨before, s, _, hs, inForce hl _ _, (fitted_iff (sound_prefix (sound_before hz hs))).mpr rfl⟩
  · rintro ⟨before, s, set, hs, hi, hf⟩
    cases inForce_unique hl hi
    rw [get_last hs, (fitted_iff (sound_prefix (sound_before hz hs))).mp hf]

theorem styles_nil (num : Str → Option Rat) (shw : Rat → Str) (lower : Str → Str) (l : List Section) (p : Pipe) (hp : p.styles = [])
    (h : ∀ m, Section.styles m ∈ l → m = []) : (l.foldl (readSection num shw lower) p).styles = [] := by
  induction l generalizing p with
  | nil => exact hp
  | cons a l ih =>
    rw [List.foldl_cons]
    apply ih _ _ (fun m hm => h m (by simp [hm]))
    cases a with
    | styles m => cases h m (by simp); exact hp
    | _ => exact hp

/-- **C152 (default style).** The default style is the last style of the script named `Default` or `*Default`, fitted like every
style.  If there is none, but there are styles, it is one of those kept; without styles there is none.

Partial: the documented choice in the second case is the first style of the script. -/
theorem C152_default_partial (num : Str → Option Rat) (shw : Rat → Str) (lower : Str → Str) (hl : Lowers lower)
    (pick : Map Str Style → Option Style) (hp : Picks pick) (old : Pipe) (sections : List Section) (hz : Sound old.set sections) :
    (∀ before s set, LastStyle IsDefault sections before s → InForce old.set before set →
      ∃ s', (prepare num shw lower pick old sections).default = some s' ∧ Fitted num shw set s s') ∧
    ((∀ m, Section.styles m ∈ sections → ∀ q ∈ m, ¬ IsDefault q.1.name) → (∃ m, Section.styles m ∈ sections ∧ m ≠ []) →
      ∃ n s', (prepare num shw lower pick old sections).default = some s' ∧
        (prepare num shw lower pick old sections).styles.get n = some s') ∧
    ((∀ m, Section.styles m ∈ sections → m = []) → (prepare num shw lower pick old sections).default = none) := by
  refine ⟨?_, ?_, ?_⟩
  · intro before s set hs hi
    cases inForce_unique hl hi
    refine ⟨_, ?_, (fitted_iff (sound_prefix (sound_before hz hs))).mpr rfl⟩
    unfold prepare
    simp only [default_last hs, reduceCtorEq, false_and, if_false]
  · intro hn ⟨m, hm, hne⟩
    have hd := default_others num shw lower sections { old with styles := [], default := none } hn
    have hst : (sections.foldl (readSection num shw lower) { old with styles := [], default := none }).styles ≠ [] := by
      intro e
      cases m with
      | nil => exact hne rfl
      | cons q m =>
        obtain ⟨before, s, hs⟩ := last_exists (· = q.1.name) sections ⟨_, hm, q, by simp, rfl⟩
        have := get_last (num := num) (shw := shw) (lower := lower) hs { old with styles := [], default := none }
        rw [e] at this
        cases this
    have hwf : ∀ (l : List Section) (p : Pipe), Map.WF p.styles → Map.WF (l.foldl (readSection num shw lower) p).styles := by
      intro l
      induction l with
      | nil => exact fun _ h => h
      | cons a l ih =>
        intro p h
        rw [List.foldl_cons]
        apply ih
        cases a with
        | styles m =>
          rw [readSection]
          clear ih
          induction m generalizing p with
          | nil => exact h
          | cons x m ih => exact ih _ (Map.wf_insert h _ _)
        | _ => exact h
    obtain ⟨k, v, hk, hv⟩ := hp _ hst
    refine ⟨k, v, ?_, ?_⟩
    · unfold prepare
      simp only []
      rw [if_pos ⟨hd, hst⟩]
      exact hv
    · rw [prepare_styles]
      exact Map.get_of_mem (hwf _ _ Map.wf_nil) hk
  · intro h
    have e := styles_nil num shw lower sections { old with styles := [], default := none } rfl h
    have hd := default_others num shw lower sections { old with styles := [], default := none }
      (fun m hm q hq => by rw [h m hm] at hq; cases hq)
    unfold prepare
    simp only []
    rw [if_neg (by simp [e])]
    exact hd

/-! ## History -/

/-- **C152 (history).** Preparing a script whose sections begin with script information that gives both resolutions and the treatment
of borders does not depend on the scripts prepared before.

Partial: the full claim is for every script. -/
theorem C152_history_partial (num : Str → Option Rat) (shw : Rat → Str) (lower : Str → Str) (hl : Lowers lower)
    (pick : Map Str Style → Option Style) (a b : Pipe) (info : Section) (rest : List Section)
    (h1 : ∃ v, GivesPlay info v) (h2 : ∃ v, GivesLayout info v) (h3 : ∃ v, GivesScaled info v) :
    prepare num shw lower pick a (info :: rest) = prepare num shw lower pick b (info :: rest) := by
  obtain ⟨v1, h1⟩ := h1
  obtain ⟨v2, h2⟩ := h2
  obtain ⟨v3, h3⟩ := h3
  obtain ⟨f, sp, x, y, rfl, h1'⟩ := h1
  have key : ∀ p q : Settings, readInfo lower f p = readInfo lower f q := by
    intro p q
    have e1 := play1 lower p _ _ ⟨f, sp, x, y, rfl, h1'⟩
    have e1' := play1 lower q _ _ ⟨f, sp, x, y, rfl, h1'⟩
    have e2 := layout1 lower p _ _ h2
    have e2' := layout1 lower q _ _ h2
    have e3 := scaled1 hl p _ _ h3
    have e3' := scaled1 hl q _ _ h3
    simp only [after] at e1 e1' e2 e2' e3 e3'
    have e4 : (readInfo lower f p).wrap = (readInfo lower f q).wrap := rfl
    cases hp : readInfo lower f p
    cases hq : readInfo lower f q
    rw [hp] at e1 e2 e3 e4
    rw [hq] at e1' e2' e3' e4
    simp only at e1 e1' e2 e2' e3 e3' e4
    rw [e1, e1', e2, e2', e3, e3', e4]
  have e : readSection num shw lower { a with styles := [], default := none } (.info f sp) =
      readSection num shw lower { b with styles := [], default := none } (.info f sp) := by
    rw [readSection, readSection, key a.set b.set]
  unfold prepare
  dsimp only [List.foldl_cons]
  rw [e]

/-! ## Examples and violations -/

/-- Decimal numbers, read and written. -/
def num (t : Str) : Option Rat := (parseU32 t).map (fun n => (n : Rat))
def shw (x : Rat) : Str := showNat x.floor.toNat

def low (t : Str) : Str := if t ∈ ["no".toList, "No".toList, "nO".toList, "NO".toList] then "no".toList else 'x' :: t

theorem low_ok : Lowers low := by
  intro t
  unfold low
  split
  · next h => exact ⟨fun _ => h, fun _ => rfl⟩
  · next h => simp only [h, iff_false]; simp

/-- A style with a name and a size. -/
def style (n size : String) : Style :=
  ⟨n.toList, none, "Arial".toList, size.toList, [], [], [], [], [], [], [], [], [], [], [], [], [], "2".toList, "3".toList, [],
   "10".toList, "20".toList, "30".toList, none, none, [], none⟩

def sp : Parser.Span := ⟨0, 0, 0, 0⟩

def first (m : Map Str Style) : Option Style := m.head?.map (·.2)
def last (m : Map Str Style) : Option Style := m.getLast?.map (·.2)

theorem first_ok : Picks first := by
  intro m h
  cases m with
  | nil => exact (h rfl).elim
  | cons p m => exact ⟨p.1, p.2, by simp, rfl⟩

theorem last_ok : Picks last := by
  intro m h
  refine ⟨(m.getLast h).1, (m.getLast h).2, List.getLast_mem h, ?_⟩
  unfold last
  rw [List.getLast?_eq_some_getLast h]
  rfl

def full : Section :=
  .info [("PlayResX".toList, "1280".toList), ("PlayResY".toList, "720".toList), ("LayoutResX".toList, "640".toList),
    ("LayoutResY".toList, "240".toList), ("ScaledBorderAndShadow".toList, "No".toList), ("WrapStyle".toList, "2".toList)] sp

example : let p := prepare num shw low first new [full, .styles [(style "A" "20", sp), (style "Default" "x", sp), (style "A" "30", sp)]]
    p.set = ⟨(1280, 720), some (640, 240), false, 2⟩ ∧
    ((p.styles.get "A".toList).map fun s => (s.fontsize, s.marginL, s.marginV, s.outline)) =
      some ("90".toList, "20".toList, "90".toList, "2".toList) ∧
    (p.default.map fun s => (s.name, s.fontsize)) = some ("Default".toList, "x".toList) := by decide +kernel

example : (∃ v, GivesPlay full v) ∧ (∃ v, GivesLayout full v) ∧ ∃ v, GivesScaled full v := by
  refine ⟨⟨_, _, _, 1280, 720, rfl, Resolved.resolution_iff.mp (by decide +kernel), rfl⟩,
    ⟨_, _, _, 640, 240, rfl, Resolved.resolution_iff.mp (by decide +kernel), rfl⟩,
    ⟨false, _, _, "No".toList, rfl, Resolved.field_iff.mp (by decide +kernel), by simp⟩⟩

/-- **C152 (history), violated.** A script without resolutions is prepared with those of the script before: its styles come out
three times as large. -/
theorem C152_history_violated :
    ∃ a b : List Section,
      ((prepare num shw low first (prepare num shw low first new a) b).styles.get "A".toList).map (·.fontsize) ≠
        ((prepare num shw low first new b).styles.get "A".toList).map (·.fontsize) ∧
      (prepare num shw low first (prepare num shw low first new a) b).set.play ≠ (prepare num shw low first new b).set.play :=
  ⟨[full], [.info [("Title".toList, "x".toList)] sp, .styles [(style "A" "20", sp)]], by decide +kernel⟩

/-- **C152 (order), violated.** The same sections in another order give other styles: styles before the script information are not
brought to the play resolution. -/
theorem C152_order_violated :
    ∃ a b : Section,
      ((prepare num shw low first new [a, b]).styles.get "A".toList).map (·.fontsize) ≠
        ((prepare num shw low first new [b, a]).styles.get "A".toList).map (·.fontsize) :=
  ⟨full, .styles [(style "A" "20", sp)], by decide +kernel⟩

/-- **C152 (default style), violated.** Without a style named `Default` the default is meant to be the first style; it is whichever
the hash map holds first, so that the same script may be drawn in different ways. -/
theorem C152_default_violated :
    ∃ (l : List Section) (p q : Map Str Style → Option Style), Picks p ∧ Picks q ∧
      (prepare num shw low p new l).default ≠ (prepare num shw low q new l).default :=
  ⟨[.styles [(style "A" "20", sp), (style "B" "30", sp)]], first, last, first_ok, last_ok, by decide +kernel⟩

/-- **C152 (borders), violated.** `ScaledBorderAndShadow: 0` means *not scaled* to the editor and *scaled* to the renderer. -/
theorem C152_scaled_violated :
    ∃ (d : Doc.Doc) (f : List (Str × Str)), InfoOps.getScaled low d = .ok (some false) ∧
      d.text = "[Script Info]\nScaledBorderAndShadow: 0\n".toList ∧
      f = [("ScaledBorderAndShadow".toList, "0".toList)] ∧
      (prepare num shw low first new [.info f sp]).set.scaled = true :=
  ⟨⟨"[Script Info]\nScaledBorderAndShadow: 0\n".toList, Doc.Stack.new ⟨50, 0, 100⟩⟩, _, by decide +kernel, rfl, rfl, by decide +kernel⟩

end Verif.Props.Prepare
