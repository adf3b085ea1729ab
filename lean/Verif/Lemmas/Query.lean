import Verif.Spec.Query
import Verif.Lemmas.Time
import Verif.Lemmas.StrX
namespace Verif.Query
open Verif
open Verif.Spec
open Verif.Spec.Query
open Verif.Ast (Event)
open Verif.Parser (Section)
open Verif.Time (parseU32_iff)

theorem parseTime_iff (s : Str) (v : Nat) : parseTime s = .ok v ↔ Clock s v ∧ v < 2 ^ 32 := by
  constructor
  · intro h
    unfold parseTime at h
    split at h
    · next h' m r hsp =>
      have hj := joinSep_splitOn ':' s
      rw [hsp] at hj
      simp only [joinSep] at hj
      split at h
      · next H M a b hH hM hr =>
        have hj2 := joinSep_splitOn '.' r
        rw [hr] at hj2
        simp only [joinSep] at hj2
        split at h
        · next S C hS hC =>
          split at h
          · next hlt =>
            injection h with h
            subst h
            exact ⟨⟨h', m, a, b, H, M, S, C, by rw [← hj, ← hj2]; simp, parseU32_iff.1 hH, parseU32_iff.1 hM, parseU32_iff.1 hS,
              parseU32_iff.1 hC, rfl⟩, hlt⟩
          · cases h
        · cases h
      · cases h
    · cases h
  · rintro ⟨⟨h, m, a, b, H, M, S, C, rfl, hH, hM, hS, hC, rfl⟩, hlt⟩
    have e : splitOn ':' (h ++ ':' :: m ++ ':' :: a ++ '.' :: b) = [h, m, a ++ '.' :: b] := by
      rw [show h ++ ':' :: m ++ ':' :: a ++ '.' :: b = h ++ ':' :: (m ++ ':' :: (a ++ '.' :: b)) by simp,
        splitOn_append_sep _ (hH.no_colon ':' (by decide) (by decide)), splitOn_append_sep _ (hM.no_colon ':' (by decide) (by decide)),
        splitOn_of_not_mem]
      simp [hS.no_colon ':' (by decide) (by decide), hC.no_colon ':' (by decide) (by decide)]
    have e2 : splitOn '.' (a ++ '.' :: b) = [a, b] := by
      rw [splitOn_append_sep _ (hS.no_colon '.' (by decide) (by decide)), splitOn_of_not_mem (hC.no_colon '.' (by decide) (by decide))]
    unfold parseTime
    rw [e]
    simp only
    rw [parseU32_iff.2 hH, parseU32_iff.2 hM, e2]
    simp only
    rw [parseU32_iff.2 hS, parseU32_iff.2 hC]
    simp only
    rw [if_pos hlt]

theorem parseTime_panic {s : Str} (h : parseTime s = .panic) : ∃ v, Clock s v ∧ 2 ^ 32 ≤ v := by
  unfold parseTime at h
  split at h
  · next h' m r hsp =>
    have hj := joinSep_splitOn ':' s
    rw [hsp] at hj
    simp only [joinSep] at hj
    split at h
    · next H M a b hH hM hr =>
      have hj2 := joinSep_splitOn '.' r
      rw [hr] at hj2
      simp only [joinSep] at hj2
      split at h
      · next S C hS hC =>
        split at h
        · cases h
        · next hlt =>
          exact ⟨_, ⟨h', m, a, b, H, M, S, C, by rw [← hj, ← hj2]; simp, parseU32_iff.1 hH, parseU32_iff.1 hM, parseU32_iff.1 hS,
            parseU32_iff.1 hC, rfl⟩, Nat.not_lt.1 hlt⟩
      · cases h
    · cases h
  · cases h

theorem numeral_unique {s : Str} {v w : Nat} (h : U32Text s v) (h' : U32Text s w) : v = w := by
  have a := parseU32_iff.2 h
  rw [parseU32_iff.2 h'] at a
  exact (Option.some.inj a).symm

/-- A time text that fits is read, any other one is an error. -/
theorem parseTime_cases {s : Str} (hf : ∀ v, Clock s v → v < 2 ^ 32) :
    (∃ v, parseTime s = .ok v ∧ Clock s v) ∨ (parseTime s = .err ∧ ∀ v, ¬ Clock s v) := by
  cases h : parseTime s with
  | ok v => exact .inl ⟨v, rfl, ((parseTime_iff s v).1 h).1⟩
  | err =>
    refine .inr ⟨rfl, fun v hv => ?_⟩
    rw [(parseTime_iff s v).2 ⟨hv, hf v hv⟩] at h
    cases h
  | panic =>
    obtain ⟨v, hv, hl⟩ := parseTime_panic h
    have := hf v hv
    omega

theorem clock_unique {s : Str} {v w : Nat} (hf : ∀ v, Clock s v → v < 2 ^ 32) (h : Clock s v) (h' : Clock s w) : v = w := by
  have a := (parseTime_iff s v).2 ⟨h, hf v h⟩
  rw [(parseTime_iff s w).2 ⟨h', hf w h'⟩] at a
  injection a with a
  exact a.symm

theorem timeOr0_spec {s : Str} (hf : ∀ v, Clock s v → v < 2 ^ 32) : ∃ n, timeOr0 s = .ok n ∧ ∀ m, Or0 Clock s m ↔ m = n := by
  rcases parseTime_cases hf with ⟨v, hv, hc⟩ | ⟨he, hn⟩
  · refine ⟨v, by simp [timeOr0, hv], fun m => ⟨?_, ?_⟩⟩
    · rintro (h | ⟨h, _⟩)
      · exact clock_unique hf h hc
      · exact absurd hc (h v)
    · rintro rfl; exact .inl hc
  · refine ⟨0, by simp [timeOr0, he], fun m => ⟨?_, ?_⟩⟩
    · rintro (h | ⟨_, h⟩)
      · exact absurd h (hn m)
      · exact h
    · rintro rfl; exact .inr ⟨hn, rfl⟩

/-- The layer number. -/
theorem layer_spec (s : Str) : ∀ m, Or0 U32Text s m ↔ m = (parseU32 s).getD 0 := by
  intro m
  cases h : parseU32 s with
  | some v =>
    have hv := parseU32_iff.1 h
    constructor
    · rintro (h' | ⟨h', _⟩)
      · exact numeral_unique h' hv
      · exact absurd hv (h' v)
    · rintro rfl; exact .inl hv
  | none =>
    have hn : ∀ v, ¬ U32Text s v := fun v hv => by rw [parseU32_iff.2 hv] at h; cases h
    constructor
    · rintro (h' | ⟨_, h'⟩)
      · exact absurd h' (hn m)
      · exact h'
    · rintro rfl; exact .inr ⟨hn, rfl⟩

/-- The key is what the specification compares. -/
theorem key_spec (c : Crit) {i : Info} (hf : Fits i.event) : ∃ k, key c i = .ok k ∧
    (∀ n, Num c i n ↔ k = .num n) ∧ (∀ s, Txt c i s ↔ k = .txt s) := by
  obtain ⟨s, hs, hs'⟩ := timeOr0_spec (s := i.event.start) (fun v hv => hf v (.inl hv))
  obtain ⟨t, ht, ht'⟩ := timeOr0_spec (s := i.event.stop) (fun v hv => hf v (.inr hv))
  cases c
  · exact ⟨.num s, by simp [key, hs], fun n => by simp [Num, hs', eq_comm], fun n => by simp [Txt]⟩
  · exact ⟨.num t, by simp [key, ht], fun n => by simp [Num, ht', eq_comm], fun n => by simp [Txt]⟩
  · refine ⟨.num (t - s), by simp [key, hs, ht], fun n => ?_, fun n => by simp [Txt]⟩
    simp only [Num, hs', ht', Key.num.injEq]
    constructor
    · rintro ⟨_, _, rfl, rfl, rfl⟩; rfl
    · rintro rfl; exact ⟨s, t, rfl, rfl, rfl⟩
  · exact ⟨_, rfl, fun n => by simp [Num], fun n => by simp [Txt, eq_comm]⟩
  · exact ⟨_, rfl, fun n => by simp [Num], fun n => by simp [Txt, eq_comm]⟩
  · exact ⟨_, rfl, fun n => by simp [Num, layer_spec, eq_comm], fun n => by simp [Txt]⟩
  · exact ⟨_, rfl, fun n => by simp [Num, eq_comm], fun n => by simp [Txt]⟩
  · exact ⟨_, rfl, fun n => by simp [Num], fun n => by simp [Txt, eq_comm]⟩

/-! ### Orders -/

theorem cmpNat_lt (a b : Nat) : cmpNat a b = .lt ↔ a < b := by
  unfold cmpNat; repeat' split
  all_goals simp <;> omega

theorem cmpNat_gt (a b : Nat) : cmpNat a b = .gt ↔ b < a := by
  unfold cmpNat; repeat' split
  all_goals simp <;> omega

theorem cmpNat_eq (a b : Nat) : cmpNat a b = .eq ↔ a = b := by
  unfold cmpNat; repeat' split
  all_goals simp <;> omega

theorem char_lt_irrefl (a : Char) : ¬ a < a := by
  rw [Char.lt_def]; exact UInt32.lt_irrefl _

theorem char_lt_asymm {a b : Char} (h : a < b) : ¬ b < a := by
  rw [Char.lt_def] at *
  exact UInt32.lt_asymm h

theorem char_total {a b : Char} (h : ¬ a < b) (h' : ¬ b < a) : a = b := by
  rw [Char.lt_def] at *
  exact Char.ext (UInt32.le_antisymm (UInt32.not_lt.1 h') (UInt32.not_lt.1 h))

theorem cmpStr_spec : ∀ s t : Str, (cmpStr s t = .lt ↔ s < t) ∧ (cmpStr s t = .gt ↔ t < s) ∧ (cmpStr s t = .eq ↔ s = t)
  | [], [] => by simp [cmpStr]
  | [], b :: y => by simp [cmpStr]
  | a :: x, [] => by simp [cmpStr]
  | a :: x, b :: y => by
    have ih := cmpStr_spec x y
    simp only [cmpStr, List.cons_lt_cons_iff, List.cons.injEq]
    by_cases h1 : a < b
    · have h2 := char_lt_asymm h1
      have h3 : a ≠ b := by rintro rfl; exact h2 h1
      simp [h1, h2, h3, h3.symm]
    · by_cases h2 : b < a
      · have h3 : a ≠ b := by rintro rfl; exact h1 h2
        simp [h1, h2, h3, h3.symm]
      · have h3 := char_total h1 h2
        subst h3
        simp [h1, ih]

theorem cmpKey_spec (c : Crit) {a b : Info} {x y : Key} (hx : (∀ n, Num c a n ↔ x = .num n) ∧ (∀ s, Txt c a s ↔ x = .txt s))
    (hy : (∀ n, Num c b n ↔ y = .num n) ∧ (∀ s, Txt c b s ↔ y = .txt s)) (hs : ∀ n s, ¬ (x = .num n ∧ y = .txt s) ∧ ¬ (x = .txt s ∧ y = .num n)) :
    (cmpKey x y = .lt ↔ Less c a b) ∧ (cmpKey x y = .gt ↔ Less c b a) ∧ (cmpKey x y = .eq ↔ Same c a b) := by
  unfold Less Same
  simp only [hx.1, hx.2, hy.1, hy.2]
  cases x with
  | num m =>
    cases y with
    | num n =>
      simp only [cmpKey, cmpNat_lt, cmpNat_gt, cmpNat_eq, Key.num.injEq]
      refine ⟨⟨fun h => .inl ⟨_, _, rfl, rfl, h⟩, ?_⟩, ⟨fun h => .inl ⟨_, _, rfl, rfl, h⟩, ?_⟩, ⟨fun h => .inl ⟨_, rfl, h.symm⟩, ?_⟩⟩
      · rintro (⟨_, _, rfl, rfl, h⟩ | ⟨_, _, h, _⟩)
        · exact h
        · cases h
      · rintro (⟨_, _, rfl, rfl, h⟩ | ⟨_, _, h, _⟩)
        · exact h
        · cases h
      · rintro (⟨_, rfl, rfl⟩ | ⟨_, h, _⟩)
        · rfl
        · cases h
    | txt s => exact absurd ⟨rfl, rfl⟩ (hs m s).1
  | txt s =>
    cases y with
    | num n => exact absurd ⟨rfl, rfl⟩ (hs n s).2
    | txt t =>
      have hc := cmpStr_spec s t
      simp only [cmpKey, hc.1, hc.2.1, hc.2.2, Key.txt.injEq]
      refine ⟨⟨fun h => .inr ⟨_, _, rfl, rfl, h⟩, ?_⟩, ⟨fun h => .inr ⟨_, _, rfl, rfl, h⟩, ?_⟩, ⟨fun h => .inr ⟨_, rfl, h.symm⟩, ?_⟩⟩
      · rintro (⟨_, _, h, _⟩ | ⟨_, _, rfl, rfl, h⟩)
        · cases h
        · exact h
      · rintro (⟨_, _, h, _⟩ | ⟨_, _, rfl, rfl, h⟩)
        · cases h
        · exact h
      · rintro (⟨_, h, _⟩ | ⟨_, rfl, rfl⟩)
        · cases h
        · rfl

theorem key_sort (c : Crit) {a b : Info} {x y : Key} (hx : key c a = .ok x) (hy : key c b = .ok y) (n : Nat) (s : Str) :
    ¬ (x = .num n ∧ y = .txt s) ∧ ¬ (x = .txt s ∧ y = .num n) := by
  constructor
  all_goals
    rintro ⟨rfl, rfl⟩
    cases c
    all_goals
      simp only [key] at hx hy
      first
        | cases hx; done
        | cases hy; done
        | (split at hx <;> first | cases hx; done | (split at hy <;> cases hy))
        | (split at hx <;> cases hx)

theorem compareBy_spec (c : Crit) {a b : Info} (ha : Fits a.event) (hb : Fits b.event) : ∃ o, compareBy c a b = .ok o ∧
    (o = .lt ↔ Less c a b) ∧ (o = .gt ↔ Less c b a) ∧ (o = .eq ↔ Same c a b) := by
  obtain ⟨x, hx, hx'⟩ := key_spec c ha
  obtain ⟨y, hy, hy'⟩ := key_spec c hb
  refine ⟨cmpKey x y, by simp [compareBy, hx, hy], cmpKey_spec c hx' hy' (key_sort c hx hy)⟩

/-- Order of keys. -/
def KLess (x y : Key) : Prop := cmpKey x y = .lt

theorem str_lt_trans {s t u : Str} (h : s < t) (h' : t < u) : s < u := List.lt_trans h h'

theorem KLess.trans {x y z : Key} (h : KLess x y) (h' : KLess y z) : KLess x z := by
  unfold KLess at *
  cases x <;> cases y <;> cases z <;> simp only [cmpKey, cmpNat_lt, (cmpStr_spec _ _).1, reduceCtorEq] at *
  · omega
  · exact str_lt_trans h h'

/-- What is compared of an event. -/
theorem keys_exist (o : SortOpt) {i : Info} (hf : Fits i.event) : ∃ x y, key o.crit i = .ok x ∧ ∀ c, o.secondary = some c → key c i = .ok y := by
  obtain ⟨x, hx, _⟩ := key_spec o.crit hf
  cases h : o.secondary with
  | none => exact ⟨x, x, hx, nofun⟩
  | some c =>
    obtain ⟨y, hy, _⟩ := key_spec c hf
    exact ⟨x, y, hx, fun c' hc => by cases hc; exact hy⟩

theorem less_iff (c : Crit) {a b : Info} (ha : Fits a.event) (hb : Fits b.event) {x y : Key} (hx : key c a = .ok x) (hy : key c b = .ok y) :
    (Less c a b ↔ KLess x y) ∧ (Same c a b ↔ x = y) := by
  obtain ⟨x', hx', hx2⟩ := key_spec c ha
  obtain ⟨y', hy', hy2⟩ := key_spec c hb
  rw [hx] at hx'; rw [hy] at hy'
  injection hx' with e1; injection hy' with e2
  subst e1; subst e2
  have h := cmpKey_spec c hx2 hy2 (key_sort c hx hy)
  refine ⟨h.1.symm, ?_⟩
  rw [← h.2.2]
  cases x <;> cases y <;> simp [cmpKey, cmpNat_eq, (cmpStr_spec _ _).2.2]

theorem before_trans (o : SortOpt) {a b c : Info} (ha : Fits a.event) (hb : Fits b.event) (hc : Fits c.event)
    (h : Before o a b) (h' : Before o b c) : Before o a c := by
  obtain ⟨x, x', hx, hx'⟩ := keys_exist o ha
  obtain ⟨y, y', hy, hy'⟩ := keys_exist o hb
  obtain ⟨z, z', hz, hz'⟩ := keys_exist o hc
  obtain ⟨p, sec, asc⟩ := o
  simp only at hx hx' hy hy' hz hz'
  unfold Before at *
  simp only [less_iff p ha hb hx hy, less_iff p hb hc hy hz, less_iff p ha hc hx hz, less_iff p hb ha hy hx, less_iff p hc hb hz hy,
    less_iff p hc ha hz hx] at *
  cases sec with
  | none =>
    simp only [reduceCtorEq, false_and, exists_false, and_false, false_or, false_implies, implies_true, true_and] at *
    cases asc
    · simp only [Bool.false_eq_true, if_false] at *
      rcases h with h | ⟨rfl, h⟩ <;> rcases h' with h' | ⟨rfl, h'⟩
      · exact .inl (h'.trans h)
      · exact .inl h
      · exact .inl h'
      · exact .inr ⟨rfl, by omega⟩
    · simp only [if_true] at *
      rcases h with h | ⟨rfl, h⟩ <;> rcases h' with h' | ⟨rfl, h'⟩
      · exact .inl (h.trans h')
      · exact .inl h
      · exact .inl h'
      · exact .inr ⟨rfl, by omega⟩
  | some q =>
    have e1 := hx' q rfl
    have e2 := hy' q rfl
    have e3 := hz' q rfl
    simp only [Option.some.injEq, exists_eq_left', forall_eq', less_iff q ha hb e1 e2, less_iff q hb hc e2 e3, less_iff q ha hc e1 e3,
      less_iff q hb ha e2 e1, less_iff q hc hb e3 e2, less_iff q hc ha e3 e1] at *
    cases asc
    · simp only [Bool.false_eq_true, if_false] at *
      rcases h with h | ⟨rfl, h⟩ | ⟨rfl, rfl, h⟩ <;> rcases h' with h' | ⟨rfl, h'⟩ | ⟨rfl, rfl, h'⟩
      · exact .inl (h'.trans h)
      · exact .inl h
      · exact .inl h
      · exact .inl h'
      · exact .inr (.inl ⟨rfl, h'.trans h⟩)
      · exact .inr (.inl ⟨rfl, h⟩)
      · exact .inl h'
      · exact .inr (.inl ⟨rfl, h'⟩)
      · exact .inr (.inr ⟨rfl, rfl, by omega⟩)
    · simp only [if_true] at *
      rcases h with h | ⟨rfl, h⟩ | ⟨rfl, rfl, h⟩ <;> rcases h' with h' | ⟨rfl, h'⟩ | ⟨rfl, rfl, h'⟩
      · exact .inl (h.trans h')
      · exact .inl h
      · exact .inl h
      · exact .inl h'
      · exact .inr (.inl ⟨rfl, h.trans h'⟩)
      · exact .inr (.inl ⟨rfl, h⟩)
      · exact .inl h'
      · exact .inr (.inl ⟨rfl, h'⟩)
      · exact .inr (.inr ⟨rfl, rfl, by omega⟩)

/-- The comparison: an answer, which agrees with the order asked for. -/
theorem compareInfo_spec (o : SortOpt) {a b : Info} (ha : Fits a.event) (hb : Fits b.event) : ∃ r, compareInfo o a b = .ok r ∧
    (r = .gt → Before o b a) ∧ (r ≠ .gt → a.index < b.index → Before o a b) := by
  obtain ⟨r1, e1, l1, g1, q1⟩ := compareBy_spec o.crit ha hb
  unfold compareInfo
  rw [e1]
  have sym : ∀ c, Same c a b → Same c b a := by
    rintro c (⟨n, h1, h2⟩ | ⟨n, h1, h2⟩)
    · exact .inl ⟨n, h2, h1⟩
    · exact .inr ⟨n, h2, h1⟩
  cases r1 with
  | lt =>
    refine ⟨_, rfl, ?_, ?_⟩ <;> unfold Before turn <;> cases o.ascending <;> simp [l1.1 rfl]
  | gt =>
    refine ⟨_, rfl, ?_, ?_⟩ <;> unfold Before turn <;> cases o.ascending <;> simp [g1.1 rfl]
  | eq =>
    have hs := q1.1 rfl
    cases h : o.secondary with
    | none =>
      refine ⟨.eq, rfl, nofun, fun _ hi => ?_⟩
      exact .inr (.inr ⟨hs, (by rw [h]; nofun), hi⟩)
    | some c =>
      obtain ⟨r2, e2, l2, g2, q2⟩ := compareBy_spec c ha hb
      simp only [e2]
      cases r2 with
      | lt => refine ⟨_, rfl, ?_, ?_⟩ <;> unfold Before turn <;> cases o.ascending <;> simp [l2.1 rfl, h, hs, sym _ hs]
      | gt => refine ⟨_, rfl, ?_, ?_⟩ <;> unfold Before turn <;> cases o.ascending <;> simp [g2.1 rfl, h, hs, sym _ hs]
      | eq =>
        refine ⟨_, rfl, by simp [turn], fun _ hi => ?_⟩
        exact .inr (.inr ⟨hs, (by rw [h]; rintro _ ⟨⟩; exact q2.1 rfl), hi⟩)

theorem insertInfo_spec (o : SortOpt) (x : Info) (hx : Fits x.event) : ∀ l : List Info, (∀ a ∈ l, Fits a.event ∧ a.index < x.index) →
    l.Pairwise (Before o) → ∃ r, insertInfo o x l = .ok r ∧ r.Pairwise (Before o) ∧ ∀ i, i ∈ r ↔ i = x ∨ i ∈ l := by
  intro l
  induction l with
  | nil => intro _ _; exact ⟨[x], rfl, by simp, by simp⟩
  | cons a l ih =>
    intro hl hp
    obtain ⟨hfa, hia⟩ := hl a (by simp)
    have hl' : ∀ b ∈ l, Fits b.event ∧ b.index < x.index := fun b hb => hl b (by simp [hb])
    obtain ⟨hp1, hp2⟩ := List.pairwise_cons.1 hp
    obtain ⟨r, hr, hg, hn⟩ := compareInfo_spec o hfa hx
    by_cases hgt : r = .gt
    · subst hgt
      refine ⟨x :: a :: l, by simp [insertInfo, hr], ?_, by simp⟩
      refine List.pairwise_cons.2 ⟨?_, hp⟩
      intro b hb
      rcases List.mem_cons.1 hb with rfl | hb
      · exact hg rfl
      · exact before_trans o hx hfa (hl' b hb).1 (hg rfl) (hp1 b hb)
    · obtain ⟨r', hr', hpr, hm⟩ := ih hl' hp2
      refine ⟨a :: r', ?_, ?_, ?_⟩
      · simp only [insertInfo, hr]
        cases r
        · simp [hr']
        · simp [hr']
        · exact absurd rfl hgt
      · refine List.pairwise_cons.2 ⟨?_, hpr⟩
        intro b hb
        rcases (hm b).1 hb with rfl | hb
        · exact hn hgt hia
        · exact hp1 b hb
      · intro i
        simp only [List.mem_cons, hm]
        constructor
        · rintro (h | h | h) <;> simp [h]
        · rintro (h | h | h) <;> simp [h]

theorem applySort_spec (o : SortOpt) : ∀ (l acc : List Info), (∀ a ∈ l, Fits a.event) → (∀ a ∈ acc, Fits a.event) →
    l.Pairwise (fun a b => a.index < b.index) → (∀ a ∈ acc, ∀ b ∈ l, a.index < b.index) → acc.Pairwise (Before o) →
    ∃ r, applySort o acc l = .ok r ∧ r.Pairwise (Before o) ∧ ∀ i, i ∈ r ↔ i ∈ acc ∨ i ∈ l := by
  intro l
  induction l with
  | nil => intro acc _ _ _ _ hp; exact ⟨acc, rfl, hp, by simp⟩
  | cons x l ih =>
    intro acc hl hacc hi hai hp
    obtain ⟨r, hr, hrp, hm⟩ := insertInfo_spec o x (hl x (by simp)) acc (fun a ha => ⟨hacc a ha, hai a ha x (by simp)⟩) hp
    obtain ⟨hi1, hi2⟩ := List.pairwise_cons.1 hi
    obtain ⟨r', hr', hrp', hm'⟩ := ih r (fun a ha => hl a (by simp [ha]))
      (fun a ha => by
        rcases (hm a).1 ha with rfl | ha
        · exact hl _ (by simp)
        · exact hacc a ha) hi2
      (fun a ha b hb => by
        rcases (hm a).1 ha with rfl | ha
        · exact hi1 b hb
        · exact hai a ha b (by simp [hb])) hrp
    refine ⟨r', by simp [applySort, hr, hr'], hrp', fun i => ?_⟩
    rw [hm', hm, List.mem_cons]
    constructor
    · rintro ((h | h) | h) <;> simp [h]
    · rintro (h | h | h) <;> simp [h]

/-! ### Filters -/

/-- How letters are compared. -/
theorem passes_iff (lower : Str → Str) (f : Filter) (p : Option Str) (t : Str) :
    passes lower f p t = true ↔ ∀ q, p = some q → In ((if f.caseSensitive then id else lower) q) ((if f.caseSensitive then id else lower) t) := by
  cases p with
  | none => simp [passes]
  | some q =>
    simp only [passes, matchesPattern, Option.some.injEq, forall_eq', In]
    cases f.caseSensitive
    · simp only [Bool.false_eq_true, if_false]; exact containsStr_iff
    · simp only [if_true, id]; exact containsStr_iff

theorem layerOk_iff (f : Filter) (e : Event) : layerOk f e = true ↔ ∀ n, f.layer = some n → U32Text e.layer n := by
  unfold layerOk
  cases f.layer with
  | none => simp
  | some n =>
    simp only [Option.some.injEq, forall_eq']
    rw [← parseU32_iff]
    cases parseU32 e.layer <;> simp

theorem timeOk_spec (f : Filter) {e : Event} (hf : Fits e) : ∃ b, timeOk f e = .ok b ∧
    (b = true ↔ ∀ x y, f.time = some (x, y) → ∃ s t, Clock e.start s ∧ Clock e.stop t ∧ x ≤ s ∧ t ≤ y) := by
  have h1 := parseTime_cases (s := e.start) (fun v hv => hf v (.inl hv))
  have h2 := parseTime_cases (s := e.stop) (fun v hv => hf v (.inr hv))
  unfold timeOk
  cases f.time with
  | none => exact ⟨true, rfl, by simp⟩
  | some p =>
    obtain ⟨x, y⟩ := p
    simp only [Option.some.injEq, Prod.mk.injEq]
    rcases h1 with ⟨v, hv, hc⟩ | ⟨he, hn⟩
    · rcases h2 with ⟨w, hw, hd⟩ | ⟨he', hn'⟩
      · rw [hv, hw]
        refine ⟨_, rfl, ?_⟩
        constructor
        · rintro h _ _ ⟨rfl, rfl⟩
          simp at h
          exact ⟨v, w, hc, hd, by omega, by omega⟩
        · intro h
          obtain ⟨s, t, hs, ht, h3, h4⟩ := h x y ⟨rfl, rfl⟩
          have e1 := clock_unique (fun v hv => hf v (.inl hv)) hs hc
          have e2 := clock_unique (fun v hv => hf v (.inr hv)) ht hd
          simp; omega
      · rw [hv, he']
        refine ⟨false, rfl, by simp, fun h => ?_⟩
        obtain ⟨s, t, _, ht, _⟩ := h x y ⟨rfl, rfl⟩
        exact absurd ht (hn' t)
    · rw [he]
      have : ∃ z, parseTime e.stop = z ∧ z ≠ .panic := by
        rcases h2 with ⟨w, hw, _⟩ | ⟨he', _⟩
        · exact ⟨_, hw, nofun⟩
        · exact ⟨_, he', nofun⟩
      obtain ⟨z, hz, hzp⟩ := this
      rw [hz]
      refine ⟨false, by cases z <;> simp at hzp ⊢, by simp, fun h => ?_⟩
      obtain ⟨s, t, hs, _⟩ := h x y ⟨rfl, rfl⟩
      exact absurd hs (hn s)

theorem matchesFilter_spec (lower : Str → Str) (f : Filter) {e : Event} (hf : Fits e) : ∃ b, matchesFilter lower f e = .ok b ∧
    (b = true ↔ Meets (if f.caseSensitive then id else lower) f e) := by
  obtain ⟨b, hb, hb'⟩ := timeOk_spec f hf
  have hk : kindOk f e = true ↔ ∀ k, f.kind = some k → e.kind = k := by
    unfold kindOk
    cases f.kind <;> simp
  unfold matchesFilter
  cases hkd : kindOk f e with
  | false => exact ⟨false, by simp, by simp, fun h => absurd (hk.2 h.kind) (by simp [hkd])⟩
  | true =>
    have p1 := passes_iff lower f f.style e.style
    have p2 := passes_iff lower f f.text e.text
    have p3 := passes_iff lower f f.speaker e.name
    have p4 := passes_iff lower f f.effect e.effect
    have p5 := layerOk_iff f e
    cases h1 : passes lower f f.style e.style with
    | false => exact ⟨false, by simp, by simp, fun h => absurd (p1.2 h.style) (by simp [h1])⟩
    | true =>
    cases h2 : passes lower f f.text e.text with
    | false => exact ⟨false, by simp, by simp, fun h => absurd (p2.2 h.text) (by simp [h2])⟩
    | true =>
    cases h3 : passes lower f f.speaker e.name with
    | false => exact ⟨false, by simp, by simp, fun h => absurd (p3.2 h.speaker) (by simp [h3])⟩
    | true =>
    cases h4 : passes lower f f.effect e.effect with
    | false => exact ⟨false, by simp, by simp, fun h => absurd (p4.2 h.effect) (by simp [h4])⟩
    | true =>
    cases h5 : layerOk f e with
    | false => exact ⟨false, by simp, by simp, fun h => absurd (p5.2 h.layer) (by simp [h5])⟩
    | true =>
    refine ⟨b, by simpa using hb, ?_, fun h => hb'.2 h.time⟩
    intro h
    exact ⟨hk.1 hkd, p1.1 h1, p3.1 h3, p2.1 h2, p4.1 h4, p5.1 h5, hb'.1 h⟩

theorem applyFilters_spec (lower : Str → Str) (f : Filter) : ∀ l : List Info, (∀ i ∈ l, Fits i.event) → ∃ r,
    applyFilters lower f l = .ok r ∧ r.Sublist l ∧ ∀ i, i ∈ r ↔ i ∈ l ∧ Meets (if f.caseSensitive then id else lower) f i.event := by
  intro l
  induction l with
  | nil => intro _; exact ⟨[], rfl, List.Sublist.refl _, by simp⟩
  | cons x l ih =>
    intro hf
    obtain ⟨r, hr, hs, hm⟩ := ih (fun i hi => hf i (by simp [hi]))
    obtain ⟨b, hb, hb'⟩ := matchesFilter_spec lower f (hf x (by simp))
    cases b with
    | true =>
      refine ⟨x :: r, by simp [applyFilters, hb, hr], hs.cons_cons x, fun i => ?_⟩
      simp only [List.mem_cons, hm]
      constructor
      · rintro (rfl | ⟨h, h'⟩)
        · exact ⟨.inl rfl, hb'.1 rfl⟩
        · exact ⟨.inr h, h'⟩
      · rintro ⟨rfl | h, h'⟩
        · exact .inl rfl
        · exact .inr ⟨h, h'⟩
    | false =>
      refine ⟨r, by simp [applyFilters, hb, hr], hs.cons x, fun i => ?_⟩
      simp only [List.mem_cons, hm]
      constructor
      · rintro ⟨h, h'⟩; exact ⟨.inr h, h'⟩
      · rintro ⟨rfl | h, h'⟩
        · exact absurd (hb'.2 h') (by simp)
        · exact ⟨h, h'⟩

theorem flat_events (sections : List Section) : sections.flatMap eventsOf = allEvents sections := by
  induction sections with
  | nil => rfl
  | cons s l ih => cases s <;> simp [allEvents, eventsOf, ih]

theorem mem_numbered : ∀ (l : List Event) (n : Nat) (i : Info), i ∈ numbered n l →
    n ≤ i.index ∧ l[i.index - n]? = some i.event ∧ i.line = 1 ∧ i.range = (0, 0) := by
  intro l
  induction l with
  | nil => intro n i h; simp [numbered] at h
  | cons e l ih =>
    intro n i h
    rcases List.mem_cons.1 h with rfl | h
    · simp
    · obtain ⟨h1, h2, h3⟩ := ih (n + 1) i h
      refine ⟨by omega, ?_, h3⟩
      rw [show i.index - n = (i.index - (n + 1)) + 1 by omega, List.getElem?_cons_succ]
      exact h2

theorem numbered_mem : ∀ (l : List Event) (n k : Nat) (e : Event), l[k]? = some e → (⟨n + k, e, 1, (0, 0)⟩ : Info) ∈ numbered n l := by
  intro l
  induction l with
  | nil => intro n k e h; simp at h
  | cons a l ih =>
    intro n k e h
    cases k with
    | zero => simp at h; subst h; simp [numbered]
    | succ k =>
      have := ih (n + 1) k e (by simpa using h)
      rw [show n + 1 + k = n + (k + 1) by omega] at this
      exact List.mem_cons_of_mem _ this

theorem numbered_sorted : ∀ (l : List Event) (n : Nat), (numbered n l).Pairwise (fun a b => a.index < b.index) := by
  intro l
  induction l with
  | nil => intro n; exact .nil
  | cons e l ih =>
    intro n
    refine List.pairwise_cons.2 ⟨fun b hb => ?_, ih (n + 1)⟩
    have := (mem_numbered l (n + 1) b hb).1
    show n < b.index
    omega

end Verif.Query
