import Verif.Model.Search
import Verif.Spec.Search
import Verif.Lemmas.Doc
import Verif.Lemmas.ListX
/-! Helper lemmas for search and replace. -/
namespace Verif.Search
open Verif Verif.Doc Verif.Pos Verif.Spec.Srch

theorem occurs_nil {pat : Str} {o : Nat} : Occurs pat [] o ↔ pat = [] ∧ o = 0 := by
  constructor
  · rintro ⟨a, b, h, rfl⟩
    have h1 : a ++ pat ++ b = [] := h.symm
    simp only [List.append_eq_nil_iff] at h1
    rw [h1.1.1]; exact ⟨h1.1.2, rfl⟩
  · rintro ⟨rfl, rfl⟩; exact ⟨[], [], rfl, rfl⟩

theorem occurs_cons {pat : Str} {c : Char} {s : Str} {o : Nat} :
    Occurs pat (c :: s) o ↔ (o = 0 ∧ pat <+: c :: s) ∨ ∃ k, o = k + c.utf8Size ∧ Occurs pat s k := by
  constructor
  · rintro ⟨a, b, h, rfl⟩
    cases a with
    | nil => exact .inl ⟨rfl, b, by simpa using h.symm⟩
    | cons x a =>
      simp only [List.cons_append, List.cons.injEq] at h
      obtain ⟨rfl, h⟩ := h
      exact .inr ⟨byteLen a, by rw [byteLen_cons]; omega, a, b, h, rfl⟩
  · rintro (⟨rfl, b, h⟩ | ⟨k, rfl, a, b, h, rfl⟩)
    · exact ⟨[], b, by simp [h], rfl⟩
    · exact ⟨c :: a, b, by simp [h], by rw [byteLen_cons]; omega⟩

theorem find_none {pat s : Str} : find pat s = none ↔ ∀ o, ¬ Occurs pat s o := by
  induction s with
  | nil =>
    unfold find
    simp only [occurs_nil]
    cases pat <;> simp [List.isPrefixOf]
  | cons c s ih =>
    unfold find
    split
    · next h =>
      simp only [reduceCtorEq, false_iff]
      intro hn
      exact hn 0 (occurs_cons.2 (.inl ⟨rfl, List.isPrefixOf_iff_prefix.1 h⟩))
    · next h =>
      rw [Option.map_eq_none_iff, ih]
      constructor
      · intro hn o ho
        rcases occurs_cons.1 ho with ⟨_, hp⟩ | ⟨k, _, hk⟩
        · exact h (List.isPrefixOf_iff_prefix.2 hp)
        · exact hn k hk
      · intro hn o ho
        exact hn _ (occurs_cons.2 (.inr ⟨o, rfl, ho⟩))

theorem find_some {pat s : Str} {m : Nat} :
    find pat s = some m ↔ Occurs pat s m ∧ ∀ o, Occurs pat s o → m ≤ o := by
  induction s generalizing m with
  | nil =>
    unfold find
    simp only [occurs_nil]
    cases pat <;> simp [List.isPrefixOf] <;> omega
  | cons c s ih =>
    have hc := utf8Size_pos c
    unfold find
    split
    · next h =>
      have h0 : Occurs pat (c :: s) 0 := occurs_cons.2 (.inl ⟨rfl, List.isPrefixOf_iff_prefix.1 h⟩)
      constructor
      · intro e; injection e with e; subst e; exact ⟨h0, fun _ _ => Nat.zero_le _⟩
      · rintro ⟨_, h2⟩
        have := h2 0 h0
        rw [Nat.le_zero.1 this]
    · next h =>
      have hnp : ¬ pat <+: c :: s := fun hp => h (List.isPrefixOf_iff_prefix.2 hp)
      constructor
      · intro e
        obtain ⟨k, hk, rfl⟩ := Option.map_eq_some_iff.1 e
        obtain ⟨h1, h2⟩ := ih.1 hk
        refine ⟨occurs_cons.2 (.inr ⟨k, rfl, h1⟩), ?_⟩
        intro o ho
        rcases occurs_cons.1 ho with ⟨_, hp⟩ | ⟨j, rfl, hj⟩
        · exact absurd hp hnp
        · have := h2 j hj; omega
      · rintro ⟨h1, h2⟩
        rcases occurs_cons.1 h1 with ⟨_, hp⟩ | ⟨j, rfl, hj⟩
        · exact absurd hp hnp
        · rw [ih.2 ⟨hj, fun o ho => ?_⟩]; · rfl
          have := h2 _ (occurs_cons.2 (.inr ⟨o, rfl, ho⟩))
          omega

/-! ## Lines -/

theorem lastLine_append (a b : Str) :
    lastLine (a ++ b) = if '\n' ∈ b then lastLine b else lastLine a ++ b := by
  unfold lastLine
  rw [List.reverse_append, List.takeWhile_append]
  by_cases h : '\n' ∈ b
  · rw [if_pos h, if_neg]
    intro hl
    have this : (b.reverse.takeWhile (· ≠ '\n')) = b.reverse :=
      List.IsPrefix.eq_of_length (List.takeWhile_prefix _) hl
    have := mem_takeWhile (p := fun x : Char => decide (x ≠ '\n')) (l := b.reverse) '\n' (by rw [this]; simpa using h)
    simp at this
  · have : (b.reverse.takeWhile (· ≠ '\n')) = b.reverse := by
      apply takeWhile_all
      intro x hx
      have : x ∈ b := by simpa using hx
      simp only [ne_eq, decide_not, Bool.not_eq_true', decide_eq_false_iff_not]
      rintro rfl; exact h this
    rw [if_neg h, if_pos (by rw [this])]
    simp

theorem lineInfo_spec (s : Str) (i l st : Nat) :
    lineInfo s i (l, st) = (l + s.count '\n',
      if '\n' ∈ s then i + byteLen s - byteLen (lastLine s) else st) := by
  induction s generalizing i l st with
  | nil => simp [lineInfo]
  | cons c s ih =>
    rw [lineInfo]
    have hl : lastLine (c :: s) = if '\n' ∈ s then lastLine s else lastLine [c] ++ s :=
      lastLine_append [c] s
    have hle : byteLen (lastLine s) ≤ byteLen s := by
      have h1 : s.reverse.takeWhile (· ≠ '\n') ++ s.reverse.dropWhile (· ≠ '\n') = s.reverse :=
        List.takeWhile_append_dropWhile
      have h2 := congrArg byteLen (congrArg List.reverse h1)
      rw [List.reverse_append, List.reverse_reverse, byteLen_append] at h2
      unfold lastLine; omega
    by_cases hc : c = '\n'
    · subst hc
      rw [if_pos rfl, ih, List.count_cons_self]
      have hn : ('\n' : Char).utf8Size = 1 := by decide
      refine Prod.ext (by simp only; omega) ?_
      simp only [List.mem_cons, true_or, if_true, byteLen_cons, hn, hl]
      split
      · omega
      · simp [lastLine]; omega
    · rw [if_neg hc, ih, List.count_cons_of_ne (fun h => hc h)]
      refine Prod.ext rfl ?_
      have : ('\n' ∈ c :: s) ↔ '\n' ∈ s := by simp [Ne.symm hc]
      simp only [this, byteLen_cons, hl]
      split
      · omega
      · rfl

theorem lastLine_suffix (s : Str) : ∃ p, s = p ++ lastLine s ∧ ('\n' ∉ s → p = []) := by
  refine ⟨(s.reverse.dropWhile (· ≠ '\n')).reverse, ?_, ?_⟩
  · unfold lastLine
    rw [← List.reverse_append, List.takeWhile_append_dropWhile, List.reverse_reverse]
  · intro h
    have : s.reverse.dropWhile (· ≠ '\n') = [] := by
      apply dropWhile_all
      intro x hx
      have : x ∈ s := by simpa using hx
      simp only [ne_eq, decide_not, Bool.not_eq_true', decide_eq_false_iff_not]
      rintro rfl; exact h this
    rw [this]; rfl

theorem lineInfo_zero (s : Str) :
    lineInfo s 0 (0, 0) = (s.count '\n', byteLen s - byteLen (lastLine s)) := by
  rw [lineInfo_spec]
  refine Prod.ext (by simp) ?_
  simp only
  split
  · omega
  · next h =>
    obtain ⟨p, hp, hn⟩ := lastLine_suffix s
    have := congrArg byteLen hp
    rw [hn h] at this
    simp only [byteLen_append, byteLen_nil] at this
    omega

theorem find_lf (s : Str) : (match find ['\n'] s with | some i => i | none => byteLen s) = byteLen (firstLine s) := by
  induction s with
  | nil => rfl
  | cons c s ih =>
    unfold find firstLine
    by_cases hc : c = '\n'
    · subst hc; simp [List.isPrefixOf]
    · have : List.isPrefixOf ['\n'] (c :: s) = false := by
        simp [List.isPrefixOf, Ne.symm hc]
      rw [this]
      simp only [Bool.false_eq_true, if_false, List.takeWhile_cons, ne_eq, hc, not_false_eq_true, decide_true, if_true,
        byteLen_cons]
      unfold firstLine at ih
      rw [← ih]
      cases hh : find ['\n'] s with
      | none => simp
      | some v => simp only [Option.map_some]; exact Nat.add_comm _ _

/-- The hit for the text `m` between `a` and `b`. -/
def hitAt (a m b : Str) : Hit :=
  ⟨byteLen a, byteLen a + byteLen m, m, lastLine a ++ firstLine (m ++ b), a.count '\n', byteLen (lastLine a)⟩

theorem firstLine_prefix (s : Str) : ∃ q, s = firstLine s ++ q :=
  ⟨s.dropWhile (· ≠ '\n'), by unfold firstLine; rw [List.takeWhile_append_dropWhile]⟩

theorem mkHit_at (a m b : Str) :
    mkHit (a ++ m ++ b) (byteLen a) (byteLen a + byteLen m) = some (hitAt a m b) := by
  unfold mkHit
  have h1 : takeBytes (a ++ m ++ b) (byteLen a) = some a := by
    rw [List.append_assoc]; exact takeBytes_append _ _
  have h2 : dropBytes (a ++ m ++ b) (byteLen a) = some (m ++ b) := by
    rw [List.append_assoc]; exact dropBytes_append _ _
  have h3 : sliceBytes (a ++ m ++ b) (byteLen a) (byteLen a + byteLen m) = some m := by
    exact sliceBytes_append a m b
  rw [h1, h2, h3]
  simp only [lineInfo_zero, afterLastLf]
  obtain ⟨p, hp, _⟩ := lastLine_suffix a
  obtain ⟨q, hq⟩ := firstLine_prefix (m ++ b)
  have hpa : byteLen a = byteLen p + byteLen (lastLine a) := by
    have := congrArg byteLen hp; rwa [byteLen_append] at this
  have hE : contextEnd (a ++ m ++ b) (m ++ b) (byteLen a) =
      byteLen p + byteLen (lastLine a ++ firstLine (m ++ b)) := by
    have hl := find_lf (m ++ b)
    rw [byteLen_append (lastLine a), ← hl]
    unfold contextEnd
    cases find ['\n'] (m ++ b) with
    | none => simp only [byteLen_append]; omega
    | some v => simp only; omega
  rw [hE]
  have hs : a ++ m ++ b = p ++ (lastLine a ++ firstLine (m ++ b)) ++ q := by
    conv => lhs; rw [List.append_assoc, hp, hq]
    simp
  have h4 : sliceBytes (a ++ m ++ b) (byteLen a - byteLen (lastLine a))
      (byteLen p + byteLen (lastLine a ++ firstLine (m ++ b))) = some (lastLine a ++ firstLine (m ++ b)) := by
    rw [show byteLen a - byteLen (lastLine a) = byteLen p by omega]
    conv => lhs; arg 1; rw [hs]
    exact sliceBytes_append _ _ _
  rw [h4]
  simp only [hitAt, Option.some.injEq, Hit.mk.injEq, true_and]
  omega

/-! ## The search loop -/

/-- All hits of `pat` in `rest`, where the characters are compared after `f`; the cached text is
`pre ++ rest ++ post`. -/
def occ (f : Char → Char) (pat : Str) (post : Str) : Str → Str → List Hit
  | _, [] => []
  | pre, c :: s =>
    if pat.isPrefixOf ((c :: s).map f) then
      hitAt pre ((c :: s).take pat.length) ((c :: s).drop pat.length ++ post) :: occ f pat post (pre ++ [c]) s
    else occ f pat post (pre ++ [c]) s

theorem byteLen_map {f : Char → Char} (hf : ∀ c, (f c).utf8Size = c.utf8Size) (s : Str) :
    byteLen (s.map f) = byteLen s := by
  induction s with
  | nil => rfl
  | cons c s ih => simp [hf, ih]

theorem occ_find {f : Char → Char} (hf : ∀ c, (f c).utf8Size = c.utf8Size) {pat : Str} (hp : pat ≠ []) (post pre rest : Str) :
    (find pat (rest.map f) = none → occ f pat post pre rest = []) ∧
    (∀ m, find pat (rest.map f) = some m → ∃ q c s, rest = q ++ c :: s ∧ byteLen q = m ∧
      pat <+: (c :: s).map f ∧
      occ f pat post pre rest =
        hitAt (pre ++ q) ((c :: s).take pat.length) ((c :: s).drop pat.length ++ post) ::
          occ f pat post (pre ++ q ++ [c]) s) := by
  induction rest generalizing pre with
  | nil =>
    refine ⟨fun _ => rfl, ?_⟩
    intro m h
    have := (find_some.1 h).1
    simp only [List.map_nil, occurs_nil] at this
    exact absurd this.1 hp
  | cons c s ih =>
    have e : (c :: s).map f = f c :: s.map f := rfl
    by_cases hpre : pat.isPrefixOf ((c :: s).map f) = true
    · have hfind : find pat ((c :: s).map f) = some 0 := by
        rw [e] at hpre ⊢
        unfold find; rw [if_pos hpre]
      refine ⟨fun h => by rw [hfind] at h; simp at h, ?_⟩
      intro m h
      rw [hfind] at h
      injection h with h
      subst h
      refine ⟨[], c, s, rfl, rfl, List.isPrefixOf_iff_prefix.1 hpre, ?_⟩
      rw [occ, if_pos hpre]; simp
    · have hfind : find pat ((c :: s).map f) = (find pat (s.map f)).map (· + c.utf8Size) := by
        rw [e] at hpre ⊢
        conv => lhs; unfold find
        rw [if_neg hpre, hf]
      obtain ⟨ih1, ih2⟩ := ih (pre ++ [c])
      refine ⟨?_, ?_⟩
      · intro h
        rw [hfind, Option.map_eq_none_iff] at h
        rw [occ, if_neg hpre, ih1 h]
      · intro m h
        rw [hfind] at h
        obtain ⟨k, hk, rfl⟩ := Option.map_eq_some_iff.1 h
        obtain ⟨q, c', s', h1, h2, h3, h4⟩ := ih2 k hk
        refine ⟨c :: q, c', s', by simp [h1], by rw [byteLen_cons]; omega, h3, ?_⟩
        rw [occ, if_neg hpre, h4]; simp

/-- What the loop returns after `acc`. -/
def limit (max : Nat) (acc l : List Hit) : List Hit :=
  if max > 0 then acc ++ l.take (max - acc.length) else acc ++ l

theorem loop_spec {f : Char → Char} (hf : ∀ c, (f c).utf8Size = c.utf8Size) {p0 : Char} {pt : Str}
    (hp : p0.utf8Size = 1) (before post : Str) (max : Nat) (k : Nat) (p rest : Str) (acc : List Hit)
    (hk : byteLen rest < k) (hm : max = 0 ∨ acc.length < max) :
    loop (before ++ (p ++ rest) ++ post) ((p ++ rest).map f) (p0 :: pt) (byteLen before) max k (byteLen p) acc =
      .ok (limit max acc (occ f (p0 :: pt) post (before ++ p) rest)) := by
  induction k generalizing p rest acc with
  | zero => omega
  | succ k ih =>
    unfold loop
    have hd : dropBytes ((p ++ rest).map f) (byteLen p) = some (rest.map f) := by
      rw [List.map_append, ← byteLen_map hf p]; exact dropBytes_append _ _
    rw [hd]
    simp only
    obtain ⟨o1, o2⟩ := occ_find hf (pat := p0 :: pt) (by simp) post (before ++ p) rest
    cases hfind : find (p0 :: pt) (rest.map f) with
    | none =>
      simp only
      rw [o1 hfind]
      unfold limit; split <;> simp
    | some m =>
      simp only
      obtain ⟨q, c, s, h1, h2, h3, h4⟩ := o2 m hfind
      have hc : f c = p0 := by
        obtain ⟨t, ht⟩ := h3
        simp only [List.cons_append, List.map_cons, List.cons.injEq] at ht
        exact ht.1.symm
      have hc1 : c.utf8Size = 1 := by rw [← hf c, hc, hp]
      have hlen : byteLen ((c :: s).take (p0 :: pt).length) = byteLen (p0 :: pt) := by
        have : ((c :: s).take (p0 :: pt).length).map f = p0 :: pt := by
          rw [List.map_take]
          exact (List.prefix_iff_eq_take.1 h3).symm
        rw [← byteLen_map hf, this]
      have hcached : before ++ (p ++ rest) ++ post =
          (before ++ p ++ q) ++ (c :: s).take (p0 :: pt).length ++ ((c :: s).drop (p0 :: pt).length ++ post) := by
        have : (c :: s).take (p0 :: pt).length ++ (c :: s).drop (p0 :: pt).length = c :: s := List.take_append_drop _ _
        rw [List.append_assoc (before ++ p ++ q), ← List.append_assoc _ _ post, this, h1]
        simp
      have hidx : byteLen before + byteLen p + m = byteLen (before ++ p ++ q) := by
        simp only [byteLen_append]; omega
      have hmk : mkHit (before ++ (p ++ rest) ++ post) (byteLen before + byteLen p + m)
          (byteLen before + byteLen p + m + byteLen (p0 :: pt)) =
          some (hitAt (before ++ p ++ q) ((c :: s).take (p0 :: pt).length) ((c :: s).drop (p0 :: pt).length ++ post)) := by
        rw [hcached, hidx, ← hlen]; exact mkHit_at _ _ _
      rw [hmk]
      simp only
      rw [h4]
      split
      · next hx =>
        have hx2 : max - acc.length = 1 := by
          have := hx.2; simp only [List.length_append, List.length_singleton] at this; omega
        unfold limit
        rw [if_pos hx.1, hx2]; simp
      · next hx =>
        have hp' : byteLen p + m + 1 = byteLen (p ++ q ++ [c]) := by
          simp only [byteLen_append, byteLen_cons, byteLen_nil]; omega
        have hr : p ++ rest = (p ++ q ++ [c]) ++ s := by rw [h1]; simp
        rw [hp', hr]
        rw [ih (p ++ q ++ [c]) s _ (by
              have := congrArg byteLen h1
              simp only [byteLen_append, byteLen_cons] at this; omega)
            (by
              rcases Nat.eq_zero_or_pos max with h0 | h0
              · exact .inl h0
              · right
                simp only [not_and, Nat.not_le] at hx
                exact hx h0)]
        congr 1
        have : before ++ (p ++ q ++ [c]) = before ++ p ++ q ++ [c] := by simp
        rw [this]
        unfold limit
        split
        · next h0 =>
          simp only [h0, true_and, Nat.not_le] at hx
          simp only [List.length_append, List.length_singleton] at hx ⊢
          rw [show max - acc.length = (max - (acc.length + 1)) + 1 by omega, List.take_succ_cons]
          simp
        · simp

/-! ## What the hits are -/

theorem occ_mem {f : Char → Char} (hf : ∀ c, (f c).utf8Size = c.utf8Size) {pat : Str} (hp : pat ≠ []) (post pre rest : Str) (h : Hit) :
    h ∈ occ f pat post pre rest ↔ ∃ q m b, rest = q ++ m ++ b ∧ m.map f = pat ∧ h = hitAt (pre ++ q) m (b ++ post) := by
  induction rest generalizing pre with
  | nil =>
    simp only [occ, List.not_mem_nil, false_iff]
    rintro ⟨q, m, b, h1, h2, _⟩
    have : q ++ m ++ b = [] := h1.symm
    simp only [List.append_eq_nil_iff] at this
    rw [this.1.2] at h2
    exact hp h2.symm
  | cons c s ih =>
    have hpl : 0 < pat.length := by cases pat <;> simp_all
    have key : (∃ q m b, c :: s = q ++ m ++ b ∧ m.map f = pat ∧ h = hitAt (pre ++ q) m (b ++ post)) ↔
        (pat <+: (c :: s).map f ∧ h = hitAt pre ((c :: s).take pat.length) ((c :: s).drop pat.length ++ post)) ∨
        (∃ q m b, s = q ++ m ++ b ∧ m.map f = pat ∧ h = hitAt (pre ++ [c] ++ q) m (b ++ post)) := by
      constructor
      · rintro ⟨q, m, b, h1, h2, h3⟩
        cases q with
        | nil =>
          left
          simp only [List.nil_append, List.append_nil] at h1 h3
          have hl : pat.length = m.length := by rw [← h2]; simp
          refine ⟨⟨b.map f, by rw [h1, List.map_append, h2]⟩, ?_⟩
          rw [h1, hl, List.take_left, List.drop_left]; exact h3
        | cons x q =>
          right
          simp only [List.cons_append, List.cons.injEq] at h1
          obtain ⟨rfl, h1⟩ := h1
          exact ⟨q, m, b, h1, h2, by rw [h3]; simp⟩
      · rintro (⟨hpre, rfl⟩ | ⟨q, m, b, h1, h2, h3⟩)
        · refine ⟨[], (c :: s).take pat.length, (c :: s).drop pat.length, by simp, ?_, by simp⟩
          rw [List.map_take]; exact (List.prefix_iff_eq_take.1 hpre).symm
        · exact ⟨c :: q, m, b, by simp [h1], h2, by rw [h3]; simp⟩
    rw [key, occ, ← ih]
    split
    · next hpre =>
      rw [List.mem_cons]
      have := List.isPrefixOf_iff_prefix.1 hpre
      constructor
      · rintro (e | e)
        · exact .inl ⟨this, e⟩
        · exact .inr e
      · rintro (e | e)
        · exact .inl e.2
        · exact .inr e
    · next hpre =>
      have : ¬ pat <+: (c :: s).map f := fun hh => hpre (List.isPrefixOf_iff_prefix.2 hh)
      constructor
      · intro e; exact .inr e
      · rintro (e | e)
        · exact absurd e.1 this
        · exact e

theorem occ_sorted (f : Char → Char) (pat post pre rest : Str) :
    ((occ f pat post pre rest).Pairwise (fun a b => a.start < b.start)) ∧
    ∀ h ∈ occ f pat post pre rest, byteLen pre ≤ h.start := by
  induction rest generalizing pre with
  | nil => simp [occ]
  | cons c s ih =>
    obtain ⟨i1, i2⟩ := ih (pre ++ [c])
    have hc := utf8Size_pos c
    have i2' : ∀ h ∈ occ f pat post (pre ++ [c]) s, byteLen pre < h.start := by
      intro h hh
      have := i2 h hh
      simp only [byteLen_append, byteLen_cons, byteLen_nil] at this; omega
    rw [occ]
    split
    · refine ⟨List.pairwise_cons.2 ⟨fun h hh => i2' h hh, i1⟩, ?_⟩
      intro h hh
      rcases List.mem_cons.1 hh with rfl | hh
      · exact Nat.le_refl _
      · exact Nat.le_of_lt (i2' h hh)
    · exact ⟨i1, fun h hh => Nat.le_of_lt (i2' h hh)⟩

/-! ## Replacing -/

theorem replace_one (d : Doc) (a m b rep : Str) (h : d.text = a ++ m ++ b) :
    ∃ d2 d3, d.delete (Range.new (byteLen a) (byteLen a + byteLen m)) = (.ok (), d2) ∧
      d2.insert (byteLen a) rep = (.ok (), d3) ∧ d3.text = a ++ rep ++ b := by
  have h1 : d.delete (Range.new (byteLen a) (byteLen a + byteLen m)) = (.ok (),
      Doc.record { d with text := a ++ b } (.delete ⟨byteLen a, byteLen a + byteLen m⟩ m) deleteDesc) := by
    rw [new_of_le (by omega)]
    unfold Doc.delete
    rw [h, textRange_at, deleteRaw_at]
  have h2 : ∀ d2 : Doc, d2.text = a ++ b → d2.insert (byteLen a) rep = (.ok (),
      Doc.record { d2 with text := a ++ rep ++ b } (.insert (byteLen a) rep) insertDesc) := by
    intro d2 h2
    unfold Doc.insert
    rw [h2, insertRaw_at]
  exact ⟨_, _, h1, h2 _ rfl, rfl⟩

theorem occ_skip {pat : Str} (hp : pat ≠ []) (post : Str) (x y pre : Str)
    (h : ∀ o, Occurs pat (x ++ y) o → byteLen x ≤ o) :
    occ id pat post pre (x ++ y) = occ id pat post (pre ++ x) y := by
  induction x generalizing pre with
  | nil => simp
  | cons c x ih =>
    have hc := utf8Size_pos c
    have hn : ¬ pat.isPrefixOf ((c :: (x ++ y)).map id) = true := by
      intro hh
      rw [List.map_id] at hh
      have := h 0 (occurs_cons.2 (.inl ⟨rfl, List.isPrefixOf_iff_prefix.1 hh⟩))
      rw [byteLen_cons] at this; omega
    rw [List.cons_append, occ, if_neg hn, ih]
    · simp
    · intro o ho
      have := h _ (occurs_cons.2 (.inr ⟨o, rfl, ho⟩))
      rw [byteLen_cons] at this; omega

theorem occurs_append {pat q s : Str} {o : Nat} (h : Occurs pat s o) : Occurs pat (q ++ s) (byteLen q + o) := by
  obtain ⟨a, b, rfl, rfl⟩ := h
  exact ⟨q ++ a, b, by simp, by simp⟩

/-- Replacing the hits of `rest` behind the untouched `pre`. -/
theorem replace_all {pat rep : Str} (hp : pat ≠ []) :
    ∀ (n : Nat) (pre rest : Str) (d : Doc), rest.length ≤ n → d.text = pre ++ rest → NoOverlap pat rest →
      ∃ d' out, replaceHits rep ((occ id pat [] pre rest).map (fun h => (h.start, h.fin))) d = (.ok (), d') ∧
        d'.text = pre ++ out ∧ Subst pat rep rest out := by
  intro n
  induction n with
  | zero =>
    intro pre rest d hl ht _
    have hr : rest = [] := List.length_eq_zero_iff.1 (Nat.le_zero.1 hl)
    subst hr
    refine ⟨d, [], rfl, ht, .done [] ?_⟩
    intro o ho
    exact hp (occurs_nil.1 ho).1
  | succ n ih =>
    intro pre rest d hl ht hno
    obtain ⟨o1, o2⟩ := occ_find (f := id) (fun _ => rfl) hp [] pre rest
    rw [List.map_id] at o1 o2
    cases hf : find pat rest with
    | none =>
      rw [o1 hf]
      exact ⟨d, rest, rfl, ht, .done rest (find_none.1 hf)⟩
    | some m =>
      obtain ⟨q, c, s, h1, h2, h3, h4⟩ := o2 m hf
      rw [List.map_id] at h3
      obtain ⟨b, hb⟩ := h3
      cases pat with
      | nil => exact absurd rfl hp
      | cons p0 pt =>
        simp only [List.cons_append, List.cons.injEq] at hb
        obtain ⟨rfl, rfl⟩ := hb
        have hrest : rest = q ++ p0 :: pt ++ b := by rw [h1]; simp
        have hlen : b.length ≤ n := by
          have := congrArg List.length h1
          simp only [List.length_append, List.length_cons] at this; omega
        have hskip : occ id (p0 :: pt) [] (pre ++ q ++ [p0]) (pt ++ b) =
            occ id (p0 :: pt) [] (pre ++ q ++ p0 :: pt) b := by
          rw [occ_skip (by simp)]
          · simp
          · intro o ho
            have hq : Occurs (p0 :: pt) rest (byteLen q) := ⟨q, b, hrest, rfl⟩
            have ho' : Occurs (p0 :: pt) rest (byteLen (q ++ [p0]) + o) := by
              have : rest = (q ++ [p0]) ++ (pt ++ b) := by rw [h1]; simp
              rw [this]; exact occurs_append ho
            have hc := utf8Size_pos p0
            have := hno _ _ hq ho' (by simp only [byteLen_append, byteLen_cons, byteLen_nil]; omega)
            simp only [byteLen_append, byteLen_cons, byteLen_nil] at this
            omega
        have hnob : NoOverlap (p0 :: pt) b := by
          intro i j hi hj hij
          have e : rest = (q ++ p0 :: pt) ++ b := hrest
          have := hno _ _ (by rw [e]; exact occurs_append hi) (by rw [e]; exact occurs_append hj) (by omega)
          omega
        obtain ⟨d1, out, e1, e2, e3⟩ := ih (pre ++ q ++ p0 :: pt) b d hlen (by rw [ht, hrest]; simp) hnob
        obtain ⟨d2, d3, f1, f2, f3⟩ := replace_one d1 (pre ++ q) (p0 :: pt) out rep (by rw [e2])
        refine ⟨d3, q ++ rep ++ out, ?_, ?_, ?_⟩
        · rw [h4, hskip, List.map_cons, replaceHits, e1]
          have hm : (hitAt (pre ++ q) ((p0 :: (pt ++ b)).take (p0 :: pt).length)
              ((p0 :: (pt ++ b)).drop (p0 :: pt).length ++ [])) = hitAt (pre ++ q) (p0 :: pt) b := by
            rw [← List.cons_append, List.take_left, List.drop_left, List.append_nil]
          rw [hm]
          simp only [hitAt]
          rw [f1]
          exact f2
        · rw [f3]; simp
        · rw [hrest]
          refine .step q b out ?_ e3
          intro o ho
          rw [← hrest] at ho
          have := (find_some.1 hf).2 o ho
          omega

end Verif.Search

namespace Verif.Search
open Verif Verif.Spec.Srch

/-! ## Words -/

theorem span_unique {word : Char → Bool} {w b v d : Str} (h : w ++ b = v ++ d)
    (hw : ∀ c ∈ w, word c = true) (hv : ∀ c ∈ v, word c = true)
    (hb : ∀ c, b.head? = some c → word c = false) (hd : ∀ c, d.head? = some c → word c = false) : w = v ∧ b = d := by
  induction w generalizing v with
  | nil =>
    cases v with
    | nil => exact ⟨rfl, by simpa using h⟩
    | cons x v =>
      have := hb x (by simp only [List.nil_append] at h; rw [h]; rfl)
      rw [hv x (by simp)] at this; exact absurd this (by simp)
  | cons y w ih =>
    cases v with
    | nil =>
      have := hd y (by simp only [List.nil_append] at h; rw [← h]; rfl)
      rw [hw y (by simp)] at this; exact absurd this (by simp)
    | cons x v =>
      simp only [List.cons_append, List.cons.injEq] at h
      obtain ⟨rfl, h⟩ := h
      obtain ⟨rfl, rfl⟩ := ih h (fun c hc => hw c (by simp [hc])) (fun c hc => hv c (by simp [hc]))
      exact ⟨rfl, rfl⟩

/-- A longer prefix extends a shorter one. -/
theorem prefix_of_le {a x pre s : Str} (h : a ++ x = pre ++ s) (hl : byteLen pre ≤ byteLen a) :
    ∃ t, a = pre ++ t ∧ s = t ++ x := by
  rcases List.append_eq_append_iff.1 h with ⟨t, h1, h2⟩ | ⟨t, h1, h2⟩
  · have : t = [] := by
      cases t with
      | nil => rfl
      | cons c t =>
        have hc := utf8Size_pos c
        have := congrArg byteLen h1
        simp only [byteLen_append, byteLen_cons] at this; omega
    subst this
    exact ⟨[], by simpa using h1.symm, by simpa using h2.symm⟩
  · exact ⟨t, h1, h2⟩

/-- State of the scan: what the current word says about the text read so far. -/
def CurOk (word : Char → Bool) (pre : Str) : Option (Nat × Str) → Prop
  | none => ∀ c, pre.getLast? = some c → word c = false
  | some (q, v) => ∃ a, pre = a ++ v.reverse ∧ byteLen a = q ∧ v ≠ [] ∧ (∀ c ∈ v, word c = true) ∧
      ∀ c, a.getLast? = some c → word c = false

/-- Words starting here or later are still to be reported. -/
def base (pre : Str) : Option (Nat × Str) → Nat
  | none => byteLen pre
  | some (q, _) => q

theorem words_mem {word : Char → Bool} {p : Nat} {w : Str} (s : Str) (cur : Option (Nat × Str))
    (pre : Str) (hcur : CurOk word pre cur) :
    (p, w) ∈ words word s (byteLen pre) cur ↔ IsWordAt word (pre ++ s) w p ∧ base pre cur ≤ p := by
  induction s generalizing pre cur with
  | nil =>
    cases cur with
    | none =>
      simp only [words, List.not_mem_nil, false_iff, not_and, base]
      rintro ⟨a, b, h1, rfl, h3, _⟩ hle
      have := congrArg byteLen h1
      simp only [byteLen_append, List.append_nil] at this
      cases w with
      | nil => exact h3 rfl
      | cons c w =>
        have hc := utf8Size_pos c
        simp only [byteLen_cons] at this; omega
    | some qv =>
      obtain ⟨q, v⟩ := qv
      obtain ⟨a, e1, e2, e3, e4, e5⟩ := hcur
      simp only [words, List.mem_singleton, Prod.mk.injEq, base]
      constructor
      · rintro ⟨rfl, rfl⟩
        refine ⟨⟨a, [], by simp [e1], e2, by simpa using e3, fun c hc => e4 c (by simpa using hc), e5, by simp⟩,
          Nat.le_refl _⟩
      · rintro ⟨⟨a', b, h1, h2, h3, h4, h5, h6⟩, hle⟩
        subst h2 e2
        rw [List.append_nil, e1, List.append_assoc] at h1
        obtain ⟨t, rfl, ht⟩ := prefix_of_le h1.symm hle
        have htn : t = [] := by
          cases hl : t.getLast? with
          | none => simpa using hl
          | some c =>
            have hc := h5 c (by rw [List.getLast?_append, hl]; rfl)
            have hm : c ∈ v := by
              have : c ∈ v.reverse := by rw [ht]; simp [List.mem_of_getLast? hl]
              simpa using this
            rw [e4 c hm] at hc; simp at hc
        subst htn
        have hs := span_unique (word := word) (w := w) (b := b) (v := v.reverse) (d := [])
          (by simpa using ht.symm) h4 (fun c hc => e4 c (by simpa using hc)) h6 (by simp)
        exact ⟨by simp, hs.1⟩
  | cons c s ih =>
    have hpre : byteLen pre + c.utf8Size = byteLen (pre ++ [c]) := by simp
    have htext : pre ++ c :: s = pre ++ [c] ++ s := by simp
    by_cases hw : word c = true
    · cases cur with
      | none =>
        simp only [words, hw, if_true]
        rw [hpre, ih (some (byteLen pre, [c])) (pre ++ [c]) ⟨pre, by simp, rfl, by simp, by simpa using hw, hcur⟩, htext]
        rfl
      | some qv =>
        obtain ⟨q, v⟩ := qv
        obtain ⟨a, e1, e2, e3, e4, e5⟩ := hcur
        simp only [words, hw, if_true]
        rw [hpre, ih (some (q, c :: v)) (pre ++ [c]) ⟨a, by rw [e1]; simp, e2, by simp, by
          intro x hx
          rcases List.mem_cons.1 hx with rfl | hx
          · exact hw
          · exact e4 x hx, e5⟩, htext]
        rfl
    · have hwf : word c = false := by simpa using hw
      have hcn : CurOk word (pre ++ [c]) none := by
        intro x hx
        simp only [List.getLast?_append, List.getLast?_singleton, Option.some_or, Option.some.injEq] at hx
        rw [← hx]; exact hwf
      cases cur with
      | none =>
        simp only [words, hwf, Bool.false_eq_true, if_false]
        rw [hpre, ih none (pre ++ [c]) hcn, htext]
        simp only [base]
        refine and_congr_right ?_
        rintro ⟨a, b, h1, h2, h3, h4, h5, h6⟩
        subst h2
        refine ⟨fun h => by simp only [byteLen_append] at h; omega, ?_⟩
        intro hle
        rw [← htext, List.append_assoc] at h1
        obtain ⟨t, rfl, ht⟩ := prefix_of_le h1.symm hle
        cases t with
        | nil =>
          cases w with
          | nil => exact absurd rfl h3
          | cons x w =>
            simp only [List.nil_append, List.cons_append, List.cons.injEq] at ht
            have := h4 x (by simp)
            rw [← ht.1, hwf] at this; simp at this
        | cons x t =>
          simp only [List.cons_append, List.cons.injEq] at ht
          rw [← ht.1]; simp only [byteLen_append, byteLen_cons, byteLen_nil]; omega
      | some qv =>
        obtain ⟨q, v⟩ := qv
        obtain ⟨a, e1, e2, e3, e4, e5⟩ := hcur
        subst e2
        simp only [words, hwf, Bool.false_eq_true, if_false, List.mem_cons, Prod.mk.injEq]
        rw [hpre, ih none (pre ++ [c]) hcn, htext]
        simp only [base]
        have hv : ∀ c ∈ v.reverse, word c = true := fun c hc => e4 c (by simpa using hc)
        have hfst : IsWordAt word (pre ++ [c] ++ s) v.reverse (byteLen a) :=
          ⟨a, c :: s, by rw [e1]; simp, rfl, by simpa using e3, hv, e5, by
            intro x hx; simp only [List.head?_cons, Option.some.injEq] at hx; rw [← hx]; exact hwf⟩
        have hba : byteLen a ≤ byteLen (pre ++ [c]) := by rw [e1]; simp only [byteLen_append]; omega
        constructor
        · rintro (⟨rfl, rfl⟩ | ⟨h1, h2⟩)
          · exact ⟨hfst, Nat.le_refl _⟩
          · exact ⟨h1, by omega⟩
        · rintro ⟨⟨a', b, h1, h2, h3, h4, h5, h6⟩, hle⟩
          subst h2
          have h1' : a' ++ (w ++ b) = a ++ (v.reverse ++ c :: s) := by
            rw [← List.append_assoc, ← h1, e1]; simp
          obtain ⟨t, rfl, ht⟩ := prefix_of_le h1' hle
          cases hl : t.getLast? with
          | none =>
            have htn : t = [] := by simpa using hl
            subst htn
            left
            have hs := span_unique (word := word) (w := w) (b := b) (v := v.reverse) (d := c :: s)
              (by simpa using ht.symm) h4 hv h6 (by
                intro x hx; simp only [List.head?_cons, Option.some.injEq] at hx; rw [← hx]; exact hwf)
            exact ⟨by simp, hs.1⟩
          | some y =>
            right
            have hy : word y = false := h5 y (by rw [List.getLast?_append, hl]; rfl)
            refine ⟨⟨a ++ t, b, h1, rfl, h3, h4, h5, h6⟩, ?_⟩
            rcases List.append_eq_append_iff.1 ht with ⟨u, k1, k2⟩ | ⟨u, k1, k2⟩
            · -- t = v.reverse ++ u
              cases u with
              | nil =>
                have : y ∈ v.reverse := by
                  have := List.mem_of_getLast? hl
                  rw [k1] at this; simpa using this
                rw [hv y this] at hy; simp at hy
              | cons x u =>
                simp only [List.cons_append, List.cons.injEq] at k2
                rw [k1, e1, k2.1]; simp only [byteLen_append, byteLen_cons, byteLen_nil]; omega
            · have : y ∈ v.reverse := by
                have := List.mem_of_getLast? hl
                rw [k1]; simp [this]
              rw [hv y this] at hy; simp at hy

theorem words_sorted {word : Char → Bool} (s : Str) (i : Nat) (cur : Option (Nat × Str))
    (hc : ∀ q v, cur = some (q, v) → q < i) :
    (words word s i cur).Pairwise (fun a b => a.1 < b.1) ∧
    ∀ x ∈ words word s i cur, (match cur with | none => i | some (q, _) => q) ≤ x.1 := by
  induction s generalizing i cur with
  | nil =>
    cases cur with
    | none => simp [words]
    | some qv => simp [words]
  | cons c s ih =>
    have h0 := utf8Size_pos c
    by_cases hw : word c = true
    · cases cur with
      | none =>
        simp only [words, hw, if_true]
        exact ih (i + c.utf8Size) (some (i, [c])) (by
          intro q v h; simp only [Option.some.injEq, Prod.mk.injEq] at h; omega)
      | some qv =>
        obtain ⟨q, v⟩ := qv
        have := hc q v rfl
        simp only [words, hw, if_true]
        exact ih (i + c.utf8Size) (some (q, c :: v)) (by
          intro q' v' h; simp only [Option.some.injEq, Prod.mk.injEq] at h; omega)
    · have hwf : word c = false := by simpa using hw
      obtain ⟨i1, i2⟩ := ih (i + c.utf8Size) none (by simp)
      cases cur with
      | none =>
        simp only [words, hwf, Bool.false_eq_true, if_false]
        exact ⟨i1, fun x hx => by have := i2 x hx; simp only at this; omega⟩
      | some qv =>
        obtain ⟨q, v⟩ := qv
        have hq := hc q v rfl
        simp only [words, hwf, Bool.false_eq_true, if_false]
        refine ⟨List.pairwise_cons.2 ⟨fun x hx => ?_, i1⟩, ?_⟩
        · have := i2 x hx; simp only at this ⊢; omega
        · intro x hx
          rcases List.mem_cons.1 hx with rfl | hx
          · exact Nat.le_refl _
          · have := i2 x hx; simp only at this ⊢; omega

end Verif.Search
