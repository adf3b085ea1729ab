import Verif.Model.Float
import Verif.Spec.Float
import Verif.Lemmas.Handlers
/-!
# Lemmas: reading decimal numbers
-/
namespace Verif.Float
open Verif Verif.Spec Verif.Spec.Float Verif.Override

theorem digits_iff {ds : Str} {v : Nat} : digits ds = some v ↔ Numeral ds v := by
  unfold digits
  by_cases h : ds = []
  · rw [if_pos h]; exact ⟨nofun, fun k => absurd h k.1⟩
  · rw [if_neg h]
    constructor
    · intro k
      have := digits_of_digitsVal k
      exact ⟨h, this.1, this.2⟩
    · rintro ⟨h1, h2, h3⟩
      rw [digitsVal_of_digits h2, h3]

theorem parseExp_iff {s : Str} {p : Nat × Nat} : parseExp s = some p ↔ Exponent s p.1 p.2 := by
  obtain ⟨up, down⟩ := p
  cases s with
  | nil => simp only [parseExp, Option.some.injEq, Prod.mk.injEq, Exponent]; constructor
           · rintro ⟨rfl, rfl⟩; exact .inl ⟨trivial, rfl, rfl⟩
           · rintro (⟨_, h1, h2⟩ | ⟨e, ds, _, ⟨_, _, h | h⟩ | ⟨_, _, h⟩⟩)
             · exact ⟨h1.symm, h2.symm⟩
             all_goals cases h
  | cons c t =>
    rw [parseExp]
    by_cases hc : c = 'e' ∨ c = 'E'
    · rw [if_pos hc]
      have head : ∀ {ds : Str} {x : Nat} {d : Char} {r : Str}, Numeral ds x → ds = d :: r → d.isDigit = true :=
        fun h e => h.2.1 _ (by rw [e]; simp)
      unfold power
      split
      · rename_i ds
        simp only [Option.map_eq_some_iff, digits_iff, Prod.mk.injEq, Exponent]
        constructor
        · rintro ⟨a, h, rfl, rfl⟩
          exact .inr ⟨c, ds, hc, .inr ⟨h, rfl, rfl⟩⟩
        · rintro (⟨h, _⟩ | ⟨e, es, _, ⟨hn, _, h | h⟩ | ⟨hn, h0, h⟩⟩)
          · cases h
          · cases h; exact absurd (head hn rfl) (by decide)
          · cases h
          · cases h; exact ⟨_, hn, h0.symm, rfl⟩
      · rename_i ds
        simp only [Option.map_eq_some_iff, digits_iff, Prod.mk.injEq, Exponent]
        constructor
        · rintro ⟨a, h, rfl, rfl⟩
          exact .inr ⟨c, ds, hc, .inl ⟨h, rfl, .inr rfl⟩⟩
        · rintro (⟨h, _⟩ | ⟨e, es, _, ⟨hn, h0, h | h⟩ | ⟨hn, h0, h⟩⟩)
          · cases h
          · cases h; exact absurd (head hn rfl) (by decide)
          · cases h; exact ⟨_, hn, rfl, h0.symm⟩
          · cases h
      · rename_i ds n1 n2
        simp only [Option.map_eq_some_iff, digits_iff, Prod.mk.injEq, Exponent]
        constructor
        · rintro ⟨a, h, rfl, rfl⟩
          exact .inr ⟨c, t, hc, .inl ⟨h, rfl, .inl rfl⟩⟩
        · rintro (⟨h, _⟩ | ⟨e, es, _, ⟨hn, h0, h | h⟩ | ⟨hn, h0, h⟩⟩)
          · cases h
          · cases h; exact ⟨_, hn, rfl, h0.symm⟩
          · cases h; exact absurd rfl (n2 _)
          · cases h; exact absurd rfl (n1 _)
    · rw [if_neg hc]
      refine ⟨nofun, ?_⟩
      rintro (⟨h, _⟩ | ⟨e, es, he, ⟨hn, h0, h | h⟩ | ⟨hn, h0, h⟩⟩)
      · cases h
      all_goals (cases h; exact absurd he hc)

/-- Does not begin with a digit. -/
def Stops (r : Str) : Prop := ∀ c, r.head? = some c → c.isDigit = false

theorem isDig_eq (c : Char) : isDig c = c.isDigit := by
  cases h : isDig c with
  | true => exact ((Handlers.dig_iff c).1 h).symm
  | false =>
    cases k : c.isDigit with
    | false => rfl
    | true => rw [(Handlers.dig_iff c).2 k] at h; cases h

theorem takeWhile_digits {ds r : Str} (h : ∀ c ∈ ds, c.isDigit = true) (hr : Stops r) :
    (ds ++ r).takeWhile isDig = ds ∧ (ds ++ r).dropWhile isDig = r := by
  induction ds with
  | nil =>
    cases r with
    | nil => exact ⟨rfl, rfl⟩
    | cons c r =>
      have := hr c rfl
      rw [List.nil_append, List.takeWhile_cons_of_neg (by rw [isDig_eq, this]; simp), List.dropWhile_cons_of_neg (by rw [isDig_eq, this]; simp)]
      exact ⟨rfl, rfl⟩
  | cons c ds ih =>
    have hc : isDig c = true := by rw [isDig_eq]; exact h c (by simp)
    have := ih (fun d hd => h d (by simp [hd]))
    rw [List.cons_append, List.takeWhile_cons_of_pos hc, List.dropWhile_cons_of_pos hc, this.1, this.2]
    exact ⟨rfl, rfl⟩

theorem mem_takeWhile {s : Str} {c : Char} (h : c ∈ s.takeWhile isDig) : c.isDigit = true := by
  induction s with
  | nil => cases h
  | cons d s ih =>
    by_cases hd : isDig d = true
    · rw [List.takeWhile_cons_of_pos hd] at h
      rcases List.mem_cons.1 h with rfl | h
      · rw [← isDig_eq]; exact hd
      · exact ih h
    · rw [List.takeWhile_cons_of_neg hd] at h; cases h

theorem stops_exponent {ex : Str} {u d : Nat} (h : Exponent ex u d) : Stops ex := by
  intro c hc
  rcases h with ⟨rfl, _⟩ | ⟨e, ds, he, ⟨_, _, rfl | rfl⟩ | ⟨_, _, rfl⟩⟩
  · cases hc
  all_goals (cases hc; rcases he with rfl | rfl <;> rfl)

theorem withExp_iff {ip fp r : Str} (h : ∀ c ∈ ip ++ fp, c.isDigit = true) {v : Rat} : withExp ip fp r = some v ↔
    ip ++ fp ≠ [] ∧ ∃ up down, Exponent r up down ∧ v = (Nat.ofDigitChars 10 (ip ++ fp) 0 : Nat) * 10 ^ up / 10 ^ (fp.length + down) := by
  unfold withExp
  by_cases h0 : ip ++ fp = []
  · rw [if_pos h0]; exact ⟨nofun, fun k => absurd h0 k.1⟩
  · rw [if_neg h0, digitsVal_of_digits h]
    cases e : parseExp r with
    | none =>
      refine ⟨nofun, ?_⟩
      rintro ⟨_, up, down, hx, _⟩
      rw [(parseExp_iff (p := (up, down))).2 hx] at e; cases e
    | some p =>
      obtain ⟨up, down⟩ := p
      simp only [Option.some.injEq]
      constructor
      · rintro rfl
        exact ⟨h0, up, down, parseExp_iff.1 e, rfl⟩
      · rintro ⟨_, u, d, hx, rfl⟩
        rw [(parseExp_iff (p := (u, d))).2 hx] at e
        cases e; rfl

theorem parseNumber_iff {s : Str} {v : Rat} : parseNumber s = some v ↔ Decimal s v := by
  constructor
  · intro h
    unfold parseNumber at h
    have hs : s = s.takeWhile isDig ++ s.dropWhile isDig := List.takeWhile_append_dropWhile.symm
    have hd : ∀ c ∈ s.takeWhile isDig, c.isDigit = true := fun c hc => mem_takeWhile hc
    generalize s.takeWhile isDig = ip at *
    generalize s.dropWhile isDig = r at *
    unfold withPoint at h
    split at h
    · rename_i t
      have hf : ∀ c ∈ ip ++ t.takeWhile isDig, c.isDigit = true := by
        intro c hc
        rcases List.mem_append.1 hc with hc | hc
        · exact hd c hc
        · exact mem_takeWhile hc
      obtain ⟨h0, up, down, hx, hv⟩ := (withExp_iff hf).1 h
      refine ⟨ip, ['.'], t.takeWhile isDig, t.dropWhile isDig, up, down, ?_, hf, h0, .inl rfl, hx, hv⟩
      rw [hs, List.append_assoc, List.takeWhile_append_dropWhile, List.append_assoc]
      rfl
    · have hf : ∀ c ∈ ip ++ [], c.isDigit = true := by rw [List.append_nil]; exact hd
      obtain ⟨h0, up, down, hx, hv⟩ := (withExp_iff hf).1 h
      exact ⟨ip, [], [], r, up, down, by simpa using hs, hf, h0, .inr ⟨rfl, rfl⟩, hx, hv⟩
  · rintro ⟨ip, point, fp, ex, up, down, rfl, hd, h0, hp, hx, hv⟩
    have hi : ∀ c ∈ ip, c.isDigit = true := fun c hc => hd c (List.mem_append_left _ hc)
    have hf : ∀ c ∈ fp, c.isDigit = true := fun c hc => hd c (List.mem_append_right _ hc)
    unfold parseNumber
    rcases hp with rfl | ⟨rfl, rfl⟩
    · have k := takeWhile_digits hi (r := '.' :: (fp ++ ex)) (by intro c hc; cases hc; rfl)
      have e : ip ++ ['.'] ++ fp ++ ex = ip ++ '.' :: (fp ++ ex) := by simp
      rw [e, k.1, k.2]
      have k' := takeWhile_digits hf (stops_exponent hx)
      show withExp ip ((fp ++ ex).takeWhile isDig) ((fp ++ ex).dropWhile isDig) = _
      rw [k'.1, k'.2]
      exact (withExp_iff hd).2 ⟨h0, up, down, hx, hv⟩
    · have k := takeWhile_digits hi (stops_exponent hx)
      have e : ip ++ [] ++ [] ++ ex = ip ++ ex := by simp
      rw [e, k.1, k.2]
      have : withPoint ip ex = withExp ip [] ex := by
        unfold withPoint
        split
        · rcases hx with ⟨h, _⟩ | ⟨e, ds, he, ⟨_, _, h | h⟩ | ⟨_, _, h⟩⟩
          · cases h
          all_goals (cases h; rcases he with h | h <;> cases h)
        · rfl
      rw [this]
      exact (withExp_iff hd).2 ⟨h0, up, down, hx, hv⟩

/-- A sign is neither a number nor infinity. -/
theorem sign_nothing (c : Char) (h : c = '-' ∨ c = '+') (t : Str) : ¬ Infinity (c :: t) ∧ ∀ v, ¬ Decimal (c :: t) v := by
  refine ⟨?_, ?_⟩
  · rintro (h' | h') <;> rcases h with rfl | rfl <;>
      exact absurd (List.cons.inj h').1 (by decide)
  · intro v hv
    rw [← parseNumber_iff] at hv
    rcases h with rfl | rfl <;> cases hv

theorem unsignedF_iff {neg : Bool} {t : Str} {P : F → Bool} (hn : P .nan = false) :
    (∃ f, unsignedF neg t = some f ∧ P f = true) ↔
    (∃ v, Decimal t v ∧ P (.fin neg v) = true) ∨ (Infinity t ∧ P (.inf neg) = true) := by
  unfold unsignedF
  cases e : parseNumber t with
  | some v =>
    simp only [Option.some.injEq, exists_eq_left']
    constructor
    · intro h; exact .inl ⟨v, parseNumber_iff.1 e, h⟩
    · rintro (⟨w, hw, h⟩ | ⟨hi, h⟩)
      · rw [parseNumber_iff.2 hw] at e; cases e; exact h
      · exfalso
        have hl : t.length = 3 ∨ t.length = 8 := by
          rcases hi with h | h
          · left; have := congrArg List.length h; simpa using this
          · right; have := congrArg List.length h; simpa using this
        cases t with
        | nil => rcases hl with h | h <;> cases h
        | cons c t =>
          have hc : c.toLower = 'i' := by
            rcases hi with h | h <;> exact (List.cons.inj h).1
          have hd : c.isDigit = false := by
            cases k : c.isDigit with
            | false => rfl
            | true =>
              exfalso
              have hlow : c.toLower = c := by
                unfold Char.toLower
                split
                · rename_i hc'
                  exfalso
                  simp only [Char.isDigit, Bool.and_eq_true, decide_eq_true_eq] at k
                  have h1 := hc'
                  have a : c.val ≤ 57 := k.2
                  have b : 65 ≤ c.val := by first | exact h1.1 | simpa using h1.1
                  exact absurd (Nat.le_trans (show (65 : UInt32).toNat ≤ c.val.toNat from b) (show c.val.toNat ≤ (57 : UInt32).toNat from a)) (by decide)
                · rfl
              rw [hlow] at hc
              subst hc
              cases k
          have hdot : c ≠ '.' := by rintro rfl; exact absurd hc (by decide)
          have he : ¬ (c = 'e' ∨ c = 'E') := by rintro (rfl | rfl) <;> exact absurd hc (by decide)
          unfold parseNumber at e
          rw [List.takeWhile_cons_of_neg (by rw [isDig_eq, hd]; simp), List.dropWhile_cons_of_neg (by rw [isDig_eq, hd]; simp)] at e
          unfold withPoint at e
          split at e
          · rename_i h; exact hdot (List.cons.inj h).1
          · cases e
  | none =>
    have nd : ¬ ∃ v, Decimal t v ∧ P (.fin neg v) = true := by
      rintro ⟨v, hv, _⟩
      rw [parseNumber_iff.2 hv] at e; cases e
    by_cases hi : t.map Char.toLower = "inf".toList ∨ t.map Char.toLower = "infinity".toList
    · simp only [if_pos hi, Option.some.injEq, exists_eq_left']
      exact ⟨fun h => .inr ⟨hi, h⟩, fun h => h.elim (fun k => absurd k nd) (·.2)⟩
    · simp only [if_neg hi]
      refine ⟨?_, fun h => h.elim (fun k => absurd k nd) (fun k => absurd k.1 hi)⟩
      rintro ⟨f, hf, hp⟩
      split at hf
      · cases hf; rw [hn] at hp; cases hp
      · cases hf

theorem parseF32_iff {s : Str} {P : F → Bool} (hn : P .nan = false) :
    (∃ f, parseF32 s = some f ∧ P f = true) ↔ ∃ t,
    ((s = t ∨ s = '+' :: t) ∧ ((∃ v, Decimal t v ∧ P (.fin false v) = true) ∨ (Infinity t ∧ P (.inf false) = true))) ∨
    (s = '-' :: t ∧ ((∃ v, Decimal t v ∧ P (.fin true v) = true) ∨ (Infinity t ∧ P (.inf true) = true))) := by
  unfold parseF32
  split
  · rename_i t
    rw [unsignedF_iff hn]
    constructor
    · intro h; exact ⟨t, .inr ⟨rfl, h⟩⟩
    · rintro ⟨u, ⟨h | h, k⟩ | ⟨h, k⟩⟩
      · subst h
        obtain ⟨a, b⟩ := sign_nothing '-' (.inl rfl) t
        rcases k with ⟨v, hv, _⟩ | ⟨k, _⟩
        · exact absurd hv (b v)
        · exact absurd k a
      · cases h
      · cases h; exact k
  · rename_i t
    rw [unsignedF_iff hn]
    constructor
    · intro h; exact ⟨t, .inl ⟨.inr rfl, h⟩⟩
    · rintro ⟨u, ⟨h | h, k⟩ | ⟨h, k⟩⟩
      · subst h
        obtain ⟨a, b⟩ := sign_nothing '+' (.inr rfl) t
        rcases k with ⟨v, hv, _⟩ | ⟨k, _⟩
        · exact absurd hv (b v)
        · exact absurd k a
      · cases h; exact k
      · cases h
  · rename_i n1 n2
    rw [unsignedF_iff hn]
    constructor
    · intro h; exact ⟨s, .inl ⟨.inl rfl, h⟩⟩
    · rintro ⟨u, ⟨h | h, k⟩ | ⟨h, k⟩⟩
      · subst h; exact k
      · exact absurd h (n2 _)
      · exact absurd h (n1 _)

theorem positive_iff (s : Str) : (parseF32 s).any positive = true ↔ AboveZero s := by
  rw [Option.any_eq_true]
  rw [parseF32_iff (s := s) (P := positive) rfl]
  simp only [positive, Bool.not_false, Bool.true_and, decide_eq_true_eq, Bool.not_true, Bool.false_and, Bool.false_eq_true, and_false,
    exists_false, or_false, and_true]
  unfold AboveZero tiny
  constructor
  · rintro ⟨t, h, k⟩; exact ⟨t, h, k.symm⟩
  · rintro ⟨t, h, k⟩; exact ⟨t, h, k.symm⟩

theorem nonNegative_iff (s : Str) : (parseF32 s).any nonNegative = true ↔ NotBelowZero s := by
  rw [Option.any_eq_true]
  rw [parseF32_iff (s := s) (P := nonNegative) rfl]
  simp only [nonNegative, Bool.not_false, Bool.true_or, decide_eq_true_eq, Bool.not_true, Bool.false_or, Bool.false_eq_true, and_false,
    or_false, and_true]
  unfold NotBelowZero tiny
  constructor
  · rintro ⟨t, ⟨h, k⟩ | h⟩
    · exact ⟨t, .inl ⟨h, k.symm⟩⟩
    · exact ⟨t, .inr h⟩
  · rintro ⟨t, ⟨h, k⟩ | h⟩
    · exact ⟨t, .inl ⟨h, k.symm⟩⟩
    · exact ⟨t, .inr h⟩

end Verif.Float
