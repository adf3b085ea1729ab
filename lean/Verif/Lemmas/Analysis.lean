import Verif.Model.Analysis
import Verif.Spec.Analysis
import Verif.Props.Overlap
import Verif.Lemmas.Resolved
import Verif.Lemmas.Lint
import Verif.Lemmas.Map
/-!
# Lemmas: the analysis of a whole script
-/
namespace Verif.Lint
open Verif
open Verif.Ast (Style Event)

theorem calm_collect {α : Type} {f : α → Outcome (List Issue)} {l : List α} {out : List Issue} (h : collect f l = .ok out)
    (hf : ∀ x a, f x = .ok a → ∀ i ∈ a, i.severity ≠ .critical) : ∀ i ∈ out, i.severity ≠ .critical := by
  obtain ⟨g, h1, h2⟩ := collect_ok.1 h
  intro i hi
  rw [h2] at hi
  obtain ⟨x, hx, hi⟩ := List.mem_flatMap.1 hi
  exact hf x _ (h1 x hx) i hi

theorem calm_both {a b : Outcome (List Issue)} {out : List Issue} (h : both a b = .ok out)
    (ha : ∀ l, a = .ok l → ∀ i ∈ l, i.severity ≠ .critical) (hb : ∀ l, b = .ok l → ∀ i ∈ l, i.severity ≠ .critical) : ∀ i ∈ out, i.severity ≠ .critical := by
  unfold both at h
  cases a with
  | err => cases h
  | panic => cases h
  | ok x =>
    cases b with
    | err => cases h
    | panic => cases h
    | ok y =>
      injection h with h
      intro i hi
      rw [← h] at hi
      rcases List.mem_append.1 hi with hi | hi
      · exact ha x rfl i hi
      · exact hb y rfl i hi

theorem calm_rules (alone child : Style → Bool) (secs : List Parser.Section) (inf : List Dialogue.Info) :
    ∀ id l, (id, Outcome.ok l) ∈ allRules alone child secs inf → ∀ i ∈ l, i.severity ≠ .critical := by
  intro id l hm
  unfold allRules at hm
  simp only [List.mem_cons, List.not_mem_nil, or_false, Prod.mk.injEq] at hm
  rcases hm with ⟨rfl, h⟩ | ⟨rfl, h⟩ | ⟨rfl, h⟩ | ⟨rfl, h⟩ | ⟨rfl, h⟩ | ⟨rfl, h⟩ | ⟨rfl, h⟩ | ⟨rfl, h⟩
  · unfold overlapRule at h
    split at h
    · injection h with h; subst h; simp
    · split at h
      · cases h
      · injection h with h; subst h; simp
      · split at h
        · refine calm_collect h.symm (fun p a ha => ?_)
          unfold overlapIssue at ha
          split at ha
          · injection ha with ha; subst ha; simp
          · cases ha
        · injection h with h; subst h; simp
  · refine calm_collect h.symm (fun e a ha i hi => ?_)
    unfold durationCheck at ha
    split at ha
    · injection ha with ha
      subst ha
      (rw [mem_if_one hi]; nofun)
    · injection ha with ha; subst ha; cases hi
    · cases ha
    · cases ha
  · refine calm_both h.symm (fun x hx i hi => ?_) (fun x hx => ?_)
    · injection hx with hx
      subst hx
      obtain ⟨s, _, hi⟩ := List.mem_flatMap.1 hi
      unfold styleColors styleColor at hi
      simp only [List.mem_append] at hi
      rcases hi with ((hi | hi) | hi) | hi <;> (rw [mem_if_one hi]; nofun)
    · refine calm_collect hx (fun e a ha => ?_)
      unfold eventColors at ha
      split at ha
      · refine calm_collect ha (fun t b hb => ?_)
        unfold colorTag at hb
        refine calm_collect hb (fun p d hd i hi => ?_)
        unfold colorPart at hd
        split at hd
        · injection hd with hd; subst hd; cases hi
        · split at hd
          · injection hd with hd
            subst hd
            (rw [mem_if_one hi]; nofun)
          · injection hd with hd; subst hd; cases hi
          · cases hd
          · cases hd
      · injection ha with ha; subst ha; simp
      · cases ha
  · injection h with h
    subst h
    intro i hi
    unfold styleRule at hi
    obtain ⟨e, _, hi⟩ := List.mem_flatMap.1 hi
    split at hi
    · cases hi
    · (rw [List.mem_singleton.1 hi]; nofun)
  · unfold tagRule at h
    refine calm_collect h.symm (fun e a ha i hi => ?_)
    split at ha
    · injection ha with ha
      subst ha
      obtain ⟨d, _, rfl⟩ := List.mem_map.1 hi
      nofun
    · injection ha with ha; subst ha; cases hi
    · cases ha
  · injection h with h
    subst h
    intro i hi
    unfold performanceRule at hi
    rcases List.mem_append.1 hi with hi | hi
    · (rw [mem_if_one hi]; nofun)
    · obtain ⟨d, _, hi⟩ := List.mem_flatMap.1 hi
      unfold complexEvent at hi
      rcases List.mem_append.1 hi with hi | hi <;> (rw [mem_if_one hi]; nofun)
  · injection h with h
    subst h
    intro i hi
    unfold encodingRule at hi
    rcases List.mem_append.1 hi with hi | hi
    · obtain ⟨e, _, hi⟩ := List.mem_flatMap.1 hi
      unfold eventEncoding at hi
      simp only [List.mem_append] at hi
      rcases hi with (hi | hi) | hi <;> (rw [mem_if_one hi]; nofun)
    · obtain ⟨e, _, hi⟩ := List.mem_flatMap.1 hi
      unfold infoEncoding at hi
      (rw [mem_if_one hi]; nofun)
  · unfold accessRule at h
    refine calm_collect h.symm (fun e a ha => ?_)
    refine calm_both ha (fun x hx => calm_both hx (fun y hy i hi => ?_) (fun y hy i hi => ?_)) (fun x hx i hi => ?_)
    · unfold shortCheck at hy
      split at hy
      · injection hy with hy; subst hy; (rw [mem_if_one hi]; nofun)
      · injection hy with hy; subst hy; cases hi
      · cases hy
      · cases hy
    · unfold speedCheck at hy
      split at hy
      · split at hy
        · split at hy
          · injection hy with hy; subst hy; (rw [mem_if_one hi]; nofun)
          · injection hy with hy; subst hy; cases hi
          · cases hy
        · injection hy with hy; subst hy; cases hi
      · injection hy with hy; subst hy; cases hi
      · cases hy
      · cases hy
    · unfold lengthCheck at hx
      split at hx
      · injection hx with hx; subst hx; (rw [mem_if_one hi]; nofun)
      · injection hx with hx; subst hx; cases hi
      · cases hx
end Verif.Lint

namespace Verif.Analysis
open Verif Verif.Spec Verif.Spec.Analysis
open Verif.Parser (Section)
open Verif.Ast (Style Event)
open Verif.Resolved (Look)

theorem analyze_ok {num : Str → Option Rat} {child : Style → Bool} {secs : List Section} {a : Analysis}
    (h : analyze num child secs = .ok a) : ∃ m, Resolved.resolved num secs = some m ∧ a.looks = m.map (·.2) ∧
      Lint.infos (Lint.firstEvents secs) = .ok a.infos ∧ runLinting num child secs a.infos = .ok a.issues := by
  unfold analyze at h
  split at h
  · rename_i m inf e1 e2
    split at h
    · rename_i l e3
      cases h
      exact ⟨m, e1, rfl, e2, e3⟩
    all_goals cases h
  all_goals cases h

/-! ## Events -/

theorem time_unique {s : Str} {v w : Nat} (h : TimeText s v) (h' : TimeText s w) : v = w := by
  rw [← Time.rawValue_iff] at h h'
  rw [h] at h'
  exact Option.some.inj h'

theorem weight_eq (n : Str) : Dialogue.weight n = pointsOf n := by
  unfold Dialogue.weight pointsOf
  simp only [List.map_cons, List.map_nil]
  split
  · rfl
  · split
    · rfl
    · split
      · rfl
      · simp

theorem dialogue_ok {e : Event} {i : Dialogue.Info} (h : Dialogue.analyze e.start e.stop e.text = .ok i) :
    Timed e i.start i.stop ∧ Override.analyze e.text = .ok i.text ∧ i.animation = min (points i.text) 10 := by
  unfold Dialogue.analyze at h
  split at h
  · cases h
  · cases h
  · rename_i s e1
    split at h
    · cases h
    · cases h
    · rename_i t e2
      split at h
      · cases h
      · rename_i hlt
        split at h
        · cases h
        · cases h
        · rename_i a e3
          split at h
          · cases h
          · cases h
          · rename_i n e4
            injection h with h
            subst h
            refine ⟨⟨((Props.C02_parse_accepts_iff _ _).1 e1).1, ((Props.C02_parse_accepts_iff _ _).1 e2).1, by simpa using hlt⟩, e3, ?_⟩
            unfold Dialogue.animationScore at e4
            simp only at e4
            split at e4
            · injection e4 with e4
              rw [← e4]
              simp only [points, weight_eq]
            · cases e4

theorem dialogue_err {e : Event} (h : Dialogue.analyze e.start e.stop e.text = .err) :
    ¬ ∃ s t a, Timed e s t ∧ Override.analyze e.text = .ok a := by
  rintro ⟨s, t, a, ⟨h1, h2, h3⟩, h4⟩
  unfold Dialogue.analyze at h
  split at h
  · rename_i e1
    exact (Props.C02_parse_rejects_iff _).1 e1 ⟨s, h1⟩
  · cases h
  · rename_i s' e1
    have := time_unique h1 ((Props.C02_parse_accepts_iff _ _).1 e1).1
    split at h
    · rename_i e2
      exact (Props.C02_parse_rejects_iff _).1 e2 ⟨t, h2⟩
    · cases h
    · rename_i t' e2
      have := time_unique h2 ((Props.C02_parse_accepts_iff _ _).1 e2).1
      split at h
      · omega
      · rw [h4] at h
        simp only at h
        split at h
        · rename_i e4
          unfold Dialogue.animationScore at e4
          simp only at e4
          split at e4 <;> cases e4
        · cases h
        · cases h

theorem infos_entries : ∀ {l : List Event} {inf : List Dialogue.Info}, Lint.infos l = .ok inf →
    Entries (fun t a => Override.analyze t = .ok a) l inf
  | [], inf, h => by cases h; exact .nil
  | e :: l, inf, h => by
    rw [Lint.infos] at h
    split at h
    · cases h
    · rename_i e1
      exact .skip (dialogue_err e1) (infos_entries h)
    · rename_i i e1
      split at h
      · rename_i r e2
        cases h
        obtain ⟨h1, h2, h3⟩ := dialogue_ok e1
        exact .keep h1 h2 h3 (infos_entries e2)
      · rename_i r e2
        exact absurd h (e2 _)

theorem entries_proper {T : List Char → Override.Analysis → Prop} {ev : List Event} {l : List Dialogue.Info} (h : Entries T ev l) :
    ∀ i ∈ l, i.start < i.stop := by
  induction h with
  | nil => nofun
  | keep h1 _ _ _ ih =>
    intro i hi
    rcases List.mem_cons.1 hi with rfl | hi
    · exact h1.2.2
    · exact ih i hi
  | skip _ _ ih => exact ih

/-! ## Styles -/

theorem foldl_wf {α V : Type} {f : Map Str V → α → Map Str V} (hf : ∀ m a, Map.WF m → Map.WF (f m a)) (l : List α) :
    ∀ m : Map Str V, Map.WF m → Map.WF (l.foldl f m) := by
  induction l with
  | nil => exact fun m h => h
  | cons a l ih => exact fun m h => ih _ (hf m a h)

theorem resolved_wf {num : Str → Option Rat} {secs : List Section} {m : Map Str Look} (h : Resolved.resolved num secs = some m) : Map.WF m := by
  unfold Resolved.resolved at h
  split at h
  · injection h with h; subst h; exact Map.wf_nil
  · unfold Styles.analyze at h
    split at h
    · cases h
    · injection h with h
      subst h
      refine foldl_wf (fun m s hm => ?_) _ _ Map.wf_nil
      dsimp only
      split
      · exact Map.wf_insert hm _ _
      · exact hm
    · injection h with h
      subst h
      refine foldl_wf (fun m s hm => ?_) _ _ Map.wf_nil
      dsimp only
      split
      · exact Map.wf_insert hm _ _
      · exact hm

theorem find_get {m : Map Str Look} (hn : ∀ k r, (k, r) ∈ m → r.name = k) (n : Str) :
    (m.map (·.2)).find? (fun r => r.name = n) = m.get n := by
  induction m with
  | nil => rfl
  | cons p m ih =>
    obtain ⟨k, r⟩ := p
    have e := hn k r (by simp)
    rw [List.map_cons, List.find?_cons, Map.get_cons, ih (fun k r h => hn k r (List.mem_cons_of_mem _ h))]
    by_cases h : k = n
    · simp [e, h]
    · simp [e, h]

/-! ## Overlaps -/

theorem mem_pairs {n i j : Nat} : (i, j) ∈ pairs n ↔ i < j ∧ j < n := by
  unfold pairs
  simp only [List.mem_flatMap, List.mem_range, List.mem_map, List.mem_filter, decide_eq_true_eq, Prod.mk.injEq]
  constructor
  · rintro ⟨a, h, b, ⟨h1, h2⟩, rfl, rfl⟩; exact ⟨h2, h1⟩
  · rintro ⟨h1, h2⟩; exact ⟨i, by omega, j, ⟨h2, h1⟩, rfl, rfl⟩

theorem nodup_pairs (n : Nat) : (pairs n).Nodup := by
  unfold pairs List.Nodup
  rw [List.pairwise_flatMap]
  constructor
  · intro i _
    rw [List.pairwise_map]
    exact (List.Pairwise.filter _ (List.nodup_range (n := n))).imp (fun h e => h (Prod.mk.inj e).2)
  · refine (List.nodup_range (n := n)).imp (fun h x hx y hy e => h ?_)
    obtain ⟨_, _, rfl⟩ := List.mem_map.1 hx
    obtain ⟨_, _, rfl⟩ := List.mem_map.1 hy
    exact (Prod.mk.inj e).1

/-- The pair with the smaller number first. -/
def norm (p : Nat × Nat) : Nat × Nat := (min p.1 p.2, max p.1 p.2)

theorem norm_inj {p q : Nat × Nat} (h : norm p = norm q) : q = p ∨ q = (p.2, p.1) := by
  obtain ⟨a, b⟩ := p
  obtain ⟨c, d⟩ := q
  simp only [norm, Prod.mk.injEq] at h ⊢
  omega

theorem overlaps_meetings {iv : List (Nat × Nat)} (hpos : ∀ p ∈ iv, p.1 < p.2) :
    ((Overlap.findOverlaps (iv.map some)).getD []).length = meetings iv := by
  obtain ⟨r, hr, hn, ho, hm⟩ := Props.C22_exact_partial iv hpos
  rw [hr, Option.getD_some, ← List.length_map (f := norm)]
  unfold meetings
  have hnn : (r.map norm).Nodup := by
    unfold List.Nodup
    rw [List.pairwise_map]
    refine List.Pairwise.imp_of_mem (fun {p q} hp hq h e => ?_) hn
    rcases norm_inj e with rfl | rfl
    · exact h rfl
    · exact ho p.1 p.2 hp hq
  refine ((List.perm_ext_iff_of_nodup hnn (List.Pairwise.filter _ (nodup_pairs _))).2 (fun p => ?_)).length_eq
  obtain ⟨i, j⟩ := p
  rw [List.mem_map, List.mem_filter, mem_pairs]
  constructor
  · rintro ⟨⟨a, b⟩, hab, e⟩
    simp only [norm, Prod.mk.injEq] at e
    have hor : (i, j) ∈ r ∨ (j, i) ∈ r := by
      rcases Nat.le_total a b with h | h
      · left; rw [← e.1, ← e.2, Nat.min_eq_left h, Nat.max_eq_right h]; exact hab
      · right; rw [← e.1, ← e.2, Nat.min_eq_right h, Nat.max_eq_left h]; exact hab
    obtain ⟨hne, x, y, hx, hy, hxy⟩ := (hm i j).1 hor
    refine ⟨⟨by omega, (List.getElem?_eq_some_iff.1 hy).1⟩, ?_⟩
    simp only [hx, hy, hxy, decide_true]
  · rintro ⟨⟨h1, h2⟩, h3⟩
    have hi : iv[i]? = some iv[i] := List.getElem?_eq_getElem _
    have hj : iv[j]? = some iv[j] := List.getElem?_eq_getElem _
    simp only [hi, hj, decide_eq_true_eq] at h3
    rcases (hm i j).2 ⟨by omega, _, _, hi, hj, h3⟩ with h | h
    · exact ⟨(i, j), h, by simp only [norm, Prod.mk.injEq]; omega⟩
    · exact ⟨(j, i), h, by simp only [norm, Prod.mk.injEq]; omega⟩

end Verif.Analysis
