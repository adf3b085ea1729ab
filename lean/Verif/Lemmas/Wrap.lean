import Verif.Spec.Wrap
import Verif.Lemmas.Str
namespace Verif.Wrap
open Verif Verif.Spec.Wrap

/-! ## Words -/

theorem join_cons (w : Str) {ws : List Str} (h : ws ≠ []) : join (w :: ws) = w ++ ' ' :: join ws := by
  cases ws with
  | nil => exact absurd rfl h
  | cons v vs => rfl

theorem join_append {a b : List Str} (ha : a ≠ []) (hb : b ≠ []) : join (a ++ b) = join a ++ ' ' :: join b := by
  induction a with
  | nil => exact absurd rfl ha
  | cons w a ih =>
    by_cases h : a = []
    · subst h; exact join_cons w hb
    · rw [List.cons_append, join_cons w (by simp [h]), join_cons w h, ih h, List.append_assoc]; rfl

theorem join_splitOn (s : Str) : join (splitOn ' ' s) = s := by
  have : ∀ l : List Str, join l = joinSep ' ' l := by
    intro l
    induction l with
    | nil => rfl
    | cons w l ih =>
      cases l with
      | nil => rfl
      | cons v l => rw [join_cons w (by simp), ih]; rfl
  rw [this, joinSep_splitOn]

theorem splitOn_mem {sep : Char} (s : Str) : ∀ w ∈ splitOn sep s, sep ∉ w := by
  induction s with
  | nil => intro w hw; simp [splitOn] at hw; simp [hw]
  | cons c s ih =>
    intro w hw
    rw [splitOn] at hw
    by_cases hc : c = sep
    · rw [if_pos hc] at hw
      rcases List.mem_cons.1 hw with rfl | hw
      · simp
      · exact ih w hw
    · rw [if_neg hc] at hw
      cases hs : splitOn sep s with
      | nil => exact absurd hs (splitOn_ne_nil sep s)
      | cons a l =>
        rw [hs] at hw ih
        simp only at hw
        rcases List.mem_cons.1 hw with rfl | hw
        · simp only [List.mem_cons, not_or]
          exact ⟨Ne.symm hc, ih a (by simp)⟩
        · exact ih w (List.mem_cons_of_mem _ hw)

theorem dropEmpty_spec (l : List Str) : ∃ k, l = dropEmpty l ++ List.replicate k [] ∧ ((dropEmpty l).getLast? ≠ some []) := by
  induction l with
  | nil => exact ⟨0, rfl, by simp [dropEmpty]⟩
  | cons w l ih =>
    obtain ⟨k, h1, h2⟩ := ih
    rw [dropEmpty]
    cases hd : dropEmpty l with
    | nil =>
      rw [hd] at h1
      by_cases hw : w = []
      · simp only [if_pos hw]
        exact ⟨k + 1, by rw [hw, h1]; rfl, by simp⟩
      · simp only [if_neg hw]
        exact ⟨k, by rw [h1]; rfl, by simpa using hw⟩
    | cons v r =>
      rw [hd] at h1 h2
      simp only
      exact ⟨k, by rw [h1]; rfl, by rw [List.getLast?_cons_cons]; exact h2⟩

theorem join_replicate (k : Nat) : ∀ (w : Str) (ws : List Str), join (w :: ws ++ List.replicate k []) = join (w :: ws) ++ List.replicate k ' ' := by
  induction k with
  | zero => intro w ws; simp
  | succ k ih =>
    intro w ws
    have e : w :: ws ++ List.replicate (k + 1) [] = (w :: ws ++ [[]]) ++ List.replicate k [] := by
      rw [List.append_assoc]; rfl
    rw [e]
    have := ih w (ws ++ [[]])
    rw [List.cons_append, this, ← List.cons_append, join_append (by simp) (by simp), List.append_assoc]
    rfl

theorem words_spec (s : Str) : ∃ k, Words s (words s) k ∧ words s ≠ [] := by
  unfold words
  cases hs : splitOn ' ' s with
  | nil => exact absurd hs (splitOn_ne_nil ' ' s)
  | cons w ws =>
    obtain ⟨k, h1, h2⟩ := dropEmpty_spec ws
    have hj := join_splitOn s
    have hm := splitOn_mem (sep := ' ') s
    rw [hs] at hj hm
    refine ⟨k, ⟨?_, ?_, ?_⟩, by simp⟩
    · simp only
      rw [← hj, ← join_replicate]
      conv => lhs; rw [h1]
      rfl
    · intro v hv
      apply hm v
      rcases List.mem_cons.1 hv with rfl | hv
      · simp
      · rw [h1]
        exact List.mem_cons_of_mem _ (List.mem_append_left _ hv)
    · simp only
      cases hd : dropEmpty ws with
      | nil => exact .inl (by simp)
      | cons v r =>
        rw [hd] at h2
        exact .inr ⟨by simp, by rw [List.getLast?_cons_cons]; exact h2⟩

theorem splitOn_join (ws : List Str) : ws ≠ [] → (∀ w ∈ ws, ' ' ∉ w) → splitOn ' ' (join ws) = ws := by
  induction ws with
  | nil => intro h; exact absurd rfl h
  | cons w ws ih =>
    intro _ h
    by_cases hw : ws = []
    · subst hw; exact splitOn_of_not_mem (h w (by simp))
    · rw [join_cons w hw, splitOn_append_sep _ (h w (by simp)), ih hw (fun v hv => h v (List.mem_cons_of_mem _ hv))]

theorem dropEmpty_replicate (k : Nat) : dropEmpty (List.replicate k ([] : Str)) = [] := by
  induction k with
  | zero => rfl
  | succ k ih => rw [List.replicate_succ, dropEmpty, ih]; rfl

theorem dropEmpty_append (l : List Str) (k : Nat) (h : l.getLast? ≠ some []) : dropEmpty (l ++ List.replicate k []) = l := by
  induction l with
  | nil => exact dropEmpty_replicate k
  | cons w l ih =>
    cases l with
    | nil =>
      have hw : w ≠ [] := by simpa using h
      rw [List.cons_append, dropEmpty, List.nil_append, dropEmpty_replicate]
      simp only [if_neg hw]
    | cons v l =>
      rw [List.getLast?_cons_cons] at h
      rw [List.cons_append, dropEmpty, ih h]

theorem words_unique {t : Str} {ws : List Str} {k : Nat} (h : Words t ws k) : words t = ws := by
  obtain ⟨h1, h2, h3⟩ := h
  cases ws with
  | nil => simp at h3
  | cons w ws =>
    have e : splitOn ' ' t = w :: ws ++ List.replicate k [] := by
      rw [h1, ← join_replicate, splitOn_join]
      · simp
      · intro v hv
        rcases List.mem_append.1 hv with hv | hv
        · exact h2 v hv
        · rw [List.eq_of_mem_replicate hv]; simp
    unfold words
    rw [e]
    simp only [List.cons_append]
    congr 1
    apply dropEmpty_append
    cases ws with
    | nil => simp
    | cons v ws =>
      rcases h3 with h3 | h3
      · simp at h3
      · rw [List.getLast?_cons_cons] at h3; exact h3.2

/-! ## Starts -/

/-- Where the pieces begin. -/
def startsOf : Nat → List (List α) → List Nat
  | _, [] => []
  | n, p :: ps => n :: startsOf (n + p.length) ps

theorem fillLoop_spec (N : Num F) (f : Font F) (limit : F) (ws : List (Word F)) : ∀ (i : Nat) (first : Word F) (adv : F) (g : Nat),
    ∃ (r : List (Word F)) (ps : List (List (Word F))), ws = r ++ ps.flatten ∧ (∀ p ∈ ps, p ≠ []) ∧
      fillLoop N f limit i first adv g ws = startsOf (i + r.length) ps := by
  induction ws with
  | nil => intro i first adv g; exact ⟨[], [], rfl, by simp, rfl⟩
  | cons w ws ih =>
    intro i first adv g
    rw [fillLoop]
    by_cases hb : N.gt (ink N f (N.add adv (N.add (space N f) w.adv)) (g + (1 + w.glyphs)) first w) limit = true
    · rw [if_pos hb]
      obtain ⟨r, ps, h1, h2, h3⟩ := ih (i + 1) w w.adv w.glyphs
      refine ⟨[], (w :: r) :: ps, by rw [h1]; simp, ?_, ?_⟩
      · intro p hp
        rcases List.mem_cons.1 hp with rfl | hp
        · simp
        · exact h2 p hp
      · rw [h3, startsOf, List.length_nil, Nat.add_zero, List.length_cons]
        congr 2
        omega
    · rw [if_neg hb]
      obtain ⟨r, ps, h1, h2, h3⟩ := ih (i + 1) first (N.add adv (N.add (space N f) w.adv)) (g + (1 + w.glyphs))
      refine ⟨w :: r, ps, by rw [h1]; rfl, h2, ?_⟩
      rw [h3, List.length_cons]
      congr 1
      omega

/-- The starts found are those of pieces of the list. -/
theorem fill_spec (N : Num F) (f : Font F) (limit : F) (ws : List (Word F)) (h : ws ≠ []) :
    ∃ ps : List (List (Word F)), ws = ps.flatten ∧ (∀ p ∈ ps, p ≠ []) ∧ 0 :: fill N f limit ws = startsOf 0 ps := by
  cases ws with
  | nil => exact absurd rfl h
  | cons w ws =>
    rw [fill]
    obtain ⟨r, ps, h1, h2, h3⟩ := fillLoop_spec N f limit ws 1 w (N.add N.zero w.adv) w.glyphs
    refine ⟨(w :: r) :: ps, by rw [h1]; rfl, ?_, ?_⟩
    · intro p hp
      rcases List.mem_cons.1 hp with rfl | hp
      · simp
      · exact h2 p hp
    · rw [h3, startsOf, List.length_cons]
      congr 2
      omega

/-- Pieces of a mapped list are mapped pieces. -/
theorem pieces_map {α β : Type} (g : α → β) (ps : List (List β)) : ∀ (l : List α), l.map g = ps.flatten → (∀ p ∈ ps, p ≠ []) →
    ∃ qs : List (List α), l = qs.flatten ∧ ps = qs.map (List.map g) ∧ (∀ q ∈ qs, q ≠ []) ∧ ∀ n, startsOf n ps = startsOf n qs := by
  induction ps with
  | nil =>
    intro l h _
    have : l = [] := by simpa using h
    exact ⟨[], by simp [this], rfl, by simp, fun _ => rfl⟩
  | cons p ps ih =>
    intro l h hne
    rw [List.flatten_cons] at h
    obtain ⟨a, b, hab, ha, hb⟩ := List.map_eq_append_iff.1 h
    obtain ⟨qs, h1, h2, h3, h4⟩ := ih b hb (fun q hq => hne q (List.mem_cons_of_mem _ hq))
    refine ⟨a :: qs, by rw [hab, h1]; rfl, by rw [h2, ← ha]; rfl, ?_, ?_⟩
    · intro q hq
      rcases List.mem_cons.1 hq with rfl | hq
      · intro h0
        subst h0
        exact hne p (by simp) (by rw [← ha]; rfl)
      · exact h3 q hq
    · intro n
      rw [startsOf, startsOf, h4, ← ha, List.length_map]

/-! ## Slices -/

/-- The length of words with a blank after each. -/
def blen (a : List Str) : Nat := (a.map (fun w => w.length + 1)).sum

theorem blen_append (a b : List Str) : blen (a ++ b) = blen a + blen b := by unfold blen; simp

theorem blen_join {p : List Str} (h : p ≠ []) : blen p = (join p).length + 1 := by
  induction p with
  | nil => exact absurd rfl h
  | cons w p ih =>
    have e : blen (w :: p) = w.length + 1 + blen p := by unfold blen; simp
    by_cases hp : p = []
    · subst hp; rw [e]; rfl
    · rw [e, ih hp, join_cons w hp, List.length_append, List.length_cons]; omega

theorem charStarts_get (a : List Str) (w : Str) (b : List Str) : ∀ pos, (charStarts pos (a ++ w :: b))[a.length]? = some (pos + blen a) := by
  induction a with
  | nil => intro pos; simp [charStarts, blen]
  | cons v a ih =>
    intro pos
    rw [List.cons_append, charStarts, List.length_cons, List.getElem?_cons_succ, ih]
    congr 1
    unfold blen
    simp
    omega

theorem charStarts_at {ws a b : List Str} (h : ws = a ++ b) (hb : b ≠ []) : ((charStarts 0 ws)[a.length]?).getD 0 = blen a := by
  cases b with
  | nil => exact absurd rfl hb
  | cons w b => rw [h, charStarts_get]; simp

variable {α : Type}

/-- The pieces of characters. -/
theorem slices_spec (ws : List Str) (chars : List (Char × Nat × α)) (k : Nat) (ps : List (List Str)) :
    ∀ (a p : List Str) (x y : List (Char × Nat × α)), p ≠ [] → (∀ q ∈ ps, q ≠ []) → ws = a ++ (p :: ps).flatten →
      chars = x ++ y → x.length = blen a → y.map (·.1) = join (p :: ps).flatten ++ List.replicate k ' ' →
      Broken y (slices chars (charStarts 0 ws) (startsOf a.length (p :: ps))) ∧
      (slices chars (charStarts 0 ws) (startsOf a.length (p :: ps))).map (List.map (·.1)) = texts k (p :: ps) := by
  induction ps with
  | nil =>
    intro a p x y hp _ hws hch hx hy
    simp only [List.flatten_cons, List.flatten_nil, List.append_nil] at hws hy
    rw [startsOf, startsOf, slices, charStarts_at hws hp, hch, ← hx, List.drop_left]
    exact ⟨.whole _, by rw [List.map_cons, hy]; rfl⟩
  | cons q ps ih =>
    intro a p x y hp hne hws hch hx hy
    have hq : q ≠ [] := hne q (by simp)
    have hr : (q :: ps).flatten ≠ [] := by rw [List.flatten_cons]; simp [hq]
    rw [List.flatten_cons] at hws hy
    rw [join_append hp hr, List.append_assoc] at hy
    obtain ⟨y1, y', hyy, hy1, hy'⟩ := List.map_eq_append_iff.1 hy
    obtain ⟨s, y2, rfl, hs, hy2⟩ := List.map_eq_cons_iff.1 hy'
    obtain ⟨c, i, t⟩ := s
    have hs : c = ' ' := hs
    subst hs
    have hl1 : y1.length = (join p).length := by rw [← hy1, List.length_map]
    have hx' : (x ++ y1 ++ [(' ', i, t)]).length = blen (a ++ p) := by
      rw [List.length_append, List.length_append, blen_append, blen_join hp, hx, hl1, List.length_singleton]; omega
    obtain ⟨i1, i2⟩ := ih (a ++ p) q (x ++ y1 ++ [(' ', i, t)]) y2 hq (fun r hr => hne r (List.mem_cons_of_mem _ hr))
      (by rw [hws, List.append_assoc]) (by rw [hch, hyy]; simp) hx' hy2
    rw [List.length_append] at i1 i2
    have e1 := charStarts_at (ws := ws) (a := a) (b := p ++ (q :: ps).flatten) hws (by simp [hp])
    have e2 := charStarts_at (ws := ws) (a := a ++ p) (b := (q :: ps).flatten) (by rw [hws, List.append_assoc]) hr
    rw [List.length_append] at e2
    have e : slices chars (charStarts 0 ws) (startsOf a.length (p :: q :: ps)) =
        y1 :: slices chars (charStarts 0 ws) (startsOf (a.length + p.length) (q :: ps)) := by
      rw [startsOf, startsOf, slices, e1, e2, blen_append, blen_join hp]
      congr 1
      have : blen a + ((join p).length + 1) - 1 = (x ++ y1).length := by rw [List.length_append, hx, hl1]; omega
      rw [this, hch, hyy, ← List.append_assoc, List.take_left, ← hx, List.drop_left]
    rw [e]
    refine ⟨?_, ?_⟩
    · rw [hyy]
      exact .brk y1 (i, t) y2 _ i1
    · rw [List.map_cons, i2, hy1]
      rfl

/-! ## Segments -/

/-- Without the number of the segment. -/
def plain (p : List (Char × Nat × α)) : List (Char × α) := p.map (fun x => (x.1, x.2.2))

theorem flat_plain (l : List (Seg α)) : ∀ i, plain (flat i l) = tagged l := by
  induction l with
  | nil => intro i; rfl
  | cons s l ih =>
    intro i
    have := ih (i + 1)
    unfold plain tagged at this ⊢
    rw [flat, List.map_append, this, List.flatMap_cons, List.map_map]
    rfl

theorem flat_text (l : List (Seg α)) (i : Nat) : (flat i l).map (·.1) = textOf l := by
  induction l generalizing i with
  | nil => rfl
  | cons s l ih =>
    unfold textOf at ih ⊢
    rw [flat, List.map_append, ih, List.flatMap_cons, List.map_map]
    congr 1
    exact List.map_id _

/-- The number of a segment tells what it carries. -/
def Consistent (p : List (Char × Nat × α)) : Prop := ∀ x ∈ p, ∀ y ∈ p, x.2.1 = y.2.1 → x.2.2 = y.2.2

theorem flat_get (l : List (Seg α)) : ∀ i, ∀ x ∈ flat i l, i ≤ x.2.1 ∧ (l[x.2.1 - i]?).map (·.info) = some x.2.2 := by
  induction l with
  | nil => intro i x hx; cases hx
  | cons s l ih =>
    intro i x hx
    rw [flat] at hx
    rcases List.mem_append.1 hx with hx | hx
    · obtain ⟨c, _, rfl⟩ := List.mem_map.1 hx
      simp
    · obtain ⟨h1, h2⟩ := ih (i + 1) x hx
      refine ⟨by omega, ?_⟩
      have : x.2.1 - i = (x.2.1 - (i + 1)) + 1 := by omega
      rw [this, List.getElem?_cons_succ]
      exact h2

theorem flat_consistent (l : List (Seg α)) : Consistent (flat 0 l) := by
  intro x hx y hy h
  have h1 := (flat_get l 0 x hx).2
  have h2 := (flat_get l 0 y hy).2
  rw [h] at h1
  rw [h1] at h2
  injection h2

theorem regroup_spec (p : List (Char × Nat × α)) (h : Consistent p) : tagged ((regroup p).map (·.2)) = plain p ∧
    (∀ j s, (regroup p).head? = some (j, s) → ∃ x ∈ p, x.2.1 = j ∧ x.2.2 = s.info) ∧ (p ≠ [] → regroup p ≠ []) := by
  induction p with
  | nil => exact ⟨rfl, by simp [regroup], by simp⟩
  | cons x p ih =>
    obtain ⟨c, i, a⟩ := x
    obtain ⟨h1, h2, h3⟩ := ih (fun x hx y hy => h x (List.mem_cons_of_mem _ hx) y (List.mem_cons_of_mem _ hy))
    rw [regroup]
    cases hr : regroup p with
    | nil =>
      rw [hr] at h1
      have hp : plain p = [] := by rw [← h1]; rfl
      refine ⟨?_, ?_, by simp⟩
      · simp only [List.map_cons, List.map_nil]
        unfold plain at hp ⊢
        rw [List.map_cons, hp]
        rfl
      · intro j s hj
        simp only [List.head?_cons, Option.some.injEq, Prod.mk.injEq] at hj
        exact ⟨_, List.mem_cons_self .., hj.1, by rw [← hj.2]⟩
    | cons js r =>
      obtain ⟨j, s⟩ := js
      rw [hr] at h1 h2
      obtain ⟨x, hx, hx1, hx2⟩ := h2 j s rfl
      simp only
      by_cases hij : i = j
      · rw [if_pos hij]
        have ha : a = s.info := by
          rw [← hx2]
          exact h _ (List.mem_cons_self ..) x (List.mem_cons_of_mem _ hx) (by rw [hx1]; exact hij)
        refine ⟨?_, ?_, by simp⟩
        · unfold plain tagged at h1 ⊢
          rw [List.map_cons (l := p), ← h1, List.map_cons, List.flatMap_cons, List.map_cons, List.map_cons, List.flatMap_cons, ← ha]
          rfl
        · intro j' s' hj
          simp only [List.head?_cons, Option.some.injEq, Prod.mk.injEq] at hj
          exact ⟨_, List.mem_cons_self .., hj.1, by rw [← hj.2]⟩
      · rw [if_neg hij]
        refine ⟨?_, ?_, by simp⟩
        · unfold plain tagged at h1 ⊢
          rw [List.map_cons (l := p), ← h1, List.map_cons, List.flatMap_cons]
          rfl
        · intro j' s' hj
          simp only [List.head?_cons, Option.some.injEq, Prod.mk.injEq] at hj
          exact ⟨_, List.mem_cons_self .., hj.1, by rw [← hj.2]⟩

theorem broken_plain {y : List (Char × Nat × α)} {ps : List (List (Char × Nat × α))} (h : Broken y ps) : Broken (plain y) (ps.map plain) := by
  induction h with
  | whole l => exact .whole _
  | brk p a r ps _ ih =>
    unfold plain at ih ⊢
    rw [List.map_append, List.map_cons, List.map_cons]
    exact .brk _ _ _ _ ih

theorem broken_mem {y : List (Char × α)} {ps : List (List (Char × α))} (h : Broken y ps) : ∀ p ∈ ps, ∀ x ∈ p, x ∈ y := by
  induction h with
  | whole l => intro p hp x hx; rw [List.mem_singleton.1 hp] at hx; exact hx
  | brk p a r ps _ ih =>
    intro q hq x hx
    rcases List.mem_cons.1 hq with rfl | hq
    · exact List.mem_append_left _ hx
    · exact List.mem_append_right _ (List.mem_cons_of_mem _ (ih q hq x hx))

/-- The lines of slices. -/
theorem lines_spec {y : List (Char × Nat × α)} (hy : Consistent y) {ps : List (List (Char × Nat × α))} (h : Broken y ps) :
    ((ps.map (fun p => (regroup p).map (·.2))).filter (fun l => !l.isEmpty)).map tagged = (ps.map plain).filter (fun p => !p.isEmpty) := by
  have hm := broken_mem h
  clear h
  induction ps with
  | nil => rfl
  | cons p ps ih =>
    have ih := ih (fun q hq => hm q (List.mem_cons_of_mem _ hq))
    have hc : Consistent p := fun x hx z hz => hy x (hm p (by simp) x hx) z (hm p (by simp) z hz)
    obtain ⟨h1, _, h3⟩ := regroup_spec p hc
    simp only [List.map_cons]
    by_cases hp : p = []
    · subst hp
      rw [List.filter_cons_of_neg (by simp [regroup]), List.filter_cons_of_neg (by simp [plain])]
      exact ih
    · rw [List.filter_cons_of_pos (by simpa using h3 hp), List.filter_cons_of_pos (by simpa [plain] using hp), List.map_cons, ih, h1]

/-! ## Widths -/

theorem ink_exact (f : Font Rat) (adv : Rat) (g : Nat) (a b : Word Rat) :
    ink exact f adv g a b = f.sx * (adv + f.spacing * ((g - 1 : Nat) : Rat) - a.lead - b.trail) := rfl

theorem space_exact (f : Font Rat) : space exact f = blank f := rfl

theorem advance_concat (f : Font Rat) (w : Str) : ∀ (p : List Str), p ≠ [] → advance f (p ++ [w]) = advance f p + (blank f + (f.measure w).1) := by
  intro p
  induction p with
  | nil => intro h; exact absurd rfl h
  | cons v p ih =>
    intro _
    cases p with
    | nil => show (f.measure v).1 + blank f + (f.measure w).1 = (f.measure v).1 + (blank f + (f.measure w).1); grind
    | cons u p =>
      have := ih (by simp)
      show (f.measure v).1 + blank f + advance f (u :: p ++ [w]) = (f.measure v).1 + blank f + advance f (u :: p) + _
      rw [this]; grind

theorem join_concat_length {p : List Str} (h : p ≠ []) (w : Str) : (join (p ++ [w])).length = (join p).length + (1 + w.length) := by
  rw [join_append h (by simp), List.length_append, List.length_cons]
  show _ + (w.length + 1) = _
  omega

/-- A run of words measured. -/
theorem ink_width (f : Font Rat) (first : Str) (t : List Str) (w : Str) :
    ink exact f (exact.add (advance f (first :: t)) (exact.add (space exact f) (word exact f w).adv))
      ((join (first :: t)).length + (1 + (word exact f w).glyphs)) (word exact f first) (word exact f w) = width f (first :: t ++ [w]) := by
  rw [ink_exact]
  unfold width
  rw [join_concat_length (by simp), advance_concat f w _ (by simp)]
  simp only [List.cons_append, List.head?_cons, Option.getD_some]
  rw [← List.cons_append, List.getLast?_append]
  rfl

theorem ink_single (f : Font Rat) (w : Str) : ink exact f (word exact f w).adv (word exact f w).glyphs (word exact f w) (word exact f w) = width f [w] := rfl

theorem gt_exact (a b : Rat) : exact.gt a b = true ↔ b < a := by
  show decide (b < a) = true ↔ _
  rw [decide_eq_true_eq]

theorem fillLoop_packed (f : Font Rat) (limit : Rat) (ws : List Str) : ∀ (i : Nat) (first : Str) (t : List Str),
    Fits f limit (first :: t) →
    ∃ (r : List Str) (ps : List (List Str)), ws = r ++ ps.flatten ∧ (∀ p ∈ ps, p ≠ []) ∧
      fillLoop exact f limit i (word exact f first) (advance f (first :: t)) (join (first :: t)).length (ws.map (word exact f)) = startsOf (i + r.length) ps ∧
      Packed f limit ((first :: t ++ r) :: ps) := by
  induction ws with
  | nil => intro i first t h; exact ⟨[], [], rfl, by simp, rfl, by simpa [Packed] using h⟩
  | cons w ws ih =>
    intro i first t h
    rw [List.map_cons, fillLoop, ink_width]
    by_cases hb : exact.gt (width f (first :: t ++ [w])) limit = true
    · rw [if_pos hb]
      obtain ⟨r, ps, h1, h2, h3, h4⟩ := ih (i + 1) w [] (.inl (by simp))
      refine ⟨[], (w :: r) :: ps, by rw [h1]; simp, ?_, ?_, ?_⟩
      · intro p hp
        rcases List.mem_cons.1 hp with rfl | hp
        · simp
        · exact h2 p hp
      · have h3' : fillLoop exact f limit (i + 1) (word exact f w) (word exact f w).adv (word exact f w).glyphs (ws.map (word exact f)) = startsOf (i + 1 + r.length) ps := h3
        rw [h3', startsOf, List.length_nil, Nat.add_zero, List.length_cons]
        congr 2
        omega
      · rw [List.append_nil, Packed]
        exact ⟨h, (gt_exact _ _).1 hb, h4⟩
    · rw [if_neg hb]
      have hle : width f (first :: (t ++ [w])) ≤ limit := Rat.not_lt.1 (fun hlt => hb ((gt_exact _ _).2 hlt))
      obtain ⟨r, ps, h1, h2, h3, h4⟩ := ih (i + 1) first (t ++ [w]) (.inr hle)
      refine ⟨w :: r, ps, by rw [h1]; rfl, h2, ?_, ?_⟩
      · have ea : exact.add (advance f (first :: t)) (exact.add (space exact f) (word exact f w).adv) = advance f (first :: (t ++ [w])) := by
          rw [← List.cons_append, advance_concat f w _ (by simp)]; rfl
        have eg : (join (first :: t)).length + (1 + (word exact f w).glyphs) = (join (first :: (t ++ [w]))).length := by
          rw [← List.cons_append, join_concat_length (by simp)]; rfl
        rw [ea, eg, h3, List.length_cons]
        congr 1
        omega
      · simpa using h4

theorem fill_packed (f : Font Rat) (limit : Rat) (ws : List Str) (h : ws ≠ []) :
    ∃ ps : List (List Str), ws = ps.flatten ∧ (∀ p ∈ ps, p ≠ []) ∧ 0 :: fill exact f limit (ws.map (word exact f)) = startsOf 0 ps ∧
      Packed f limit ps := by
  cases ws with
  | nil => exact absurd rfl h
  | cons w ws =>
    obtain ⟨r, ps, h1, h2, h3, h4⟩ := fillLoop_packed f limit ws 1 w [] (.inl (by simp))
    refine ⟨(w :: r) :: ps, by rw [h1]; rfl, ?_, ?_, h4⟩
    · intro p hp
      rcases List.mem_cons.1 hp with rfl | hp
      · simp
      · exact h2 p hp
    · have e : exact.add exact.zero (word exact f w).adv = (word exact f w).adv := Rat.zero_add _
      rw [List.map_cons, fill, e, startsOf, List.length_cons]
      have h3' : fillLoop exact f limit 1 (word exact f w) (word exact f w).adv (word exact f w).glyphs (ws.map (word exact f)) = startsOf (1 + r.length) ps := h3
      rw [h3']
      congr 2
      omega

theorem startsOf_length (ps : List (List α)) : ∀ n, (startsOf n ps).length = ps.length := by
  induction ps with
  | nil => intro n; rfl
  | cons p ps ih => intro n; rw [startsOf, List.length_cons, ih, List.length_cons]

/-! ## Balancing -/

theorem balance_count (N : Num F) (f : Font F) (ws : List (Word F)) (t k : Nat) : ∀ lo hi, (fill N f hi ws).length ≤ t →
    (fill N f (balance N f ws t k lo hi) ws).length ≤ t := by
  induction k with
  | zero => intro lo hi h; exact h
  | succ k ih =>
    intro lo hi h
    rw [balance]
    by_cases hc : (fill N f (N.half (N.add lo hi)) ws).length ≤ t
    · rw [if_pos hc]; exact ih _ _ hc
    · rw [if_neg hc]; exact ih _ _ h

theorem half_exact (a b : Rat) : exact.half (exact.add a b) = (a + b) / 2 := rfl

theorem balance_le (f : Font Rat) (ws : List (Word Rat)) (t k : Nat) : ∀ lo hi : Rat, lo ≤ hi → balance exact f ws t k lo hi ≤ hi ∧ lo ≤ balance exact f ws t k lo hi := by
  induction k with
  | zero => intro lo hi h; exact ⟨Rat.le_refl, h⟩
  | succ k ih =>
    intro lo hi h
    rw [balance, half_exact]
    have h1 : lo ≤ (lo + hi) / 2 := by grind
    have h2 : (lo + hi) / 2 ≤ hi := by grind
    by_cases hc : (fill exact f ((lo + hi) / 2) ws).length ≤ t
    · rw [if_pos hc]
      have := ih _ _ h1
      exact ⟨Rat.le_trans this.1 h2, this.2⟩
    · rw [if_neg hc]
      have := ih _ _ h2
      exact ⟨this.1, Rat.le_trans h1 this.2⟩

theorem max_exact (a b : Rat) : exact.max a b = max a b := rfl

theorem maxWord_le (f : Font Rat) (ws : List Str) (m : Rat) (h0 : 0 ≤ m) (h : ∀ w ∈ ws, width f [w] ≤ m) : maxWord exact f (ws.map (word exact f)) ≤ m := by
  unfold maxWord
  have : ∀ (l : List Rat) (a : Rat), a ≤ m → (∀ x ∈ l, x ≤ m) → l.foldl exact.max a ≤ m := by
    intro l
    induction l with
    | nil => intro a h _; exact h
    | cons x l ih =>
      intro a ha hl
      refine ih _ ?_ (fun y hy => hl y (List.mem_cons_of_mem _ hy))
      rw [max_exact]
      have := hl x (by simp)
      grind
  refine this _ _ h0 ?_
  intro x hx
  obtain ⟨v, hv, rfl⟩ := List.mem_map.1 hx
  obtain ⟨w, hw, rfl⟩ := List.mem_map.1 hv
  rw [ink_single]
  exact h w hw

/-! ## Lines -/

/-- What comes out of starts that are those of pieces. -/
theorem cut_spec (line : List (Seg α)) (ps : List (List Str)) (k : Nat) (hw : Words (textOf line) ps.flatten k)
    (hne : ∀ p ∈ ps, p ≠ []) (h0 : ps ≠ []) (out : List (List (Seg α)))
    (ho : out = ((slices (flat 0 line) (charStarts 0 ps.flatten) (startsOf 0 ps)).map (fun p => (regroup p).map (·.2))).filter (fun l => !l.isEmpty)) :
    ∃ pieces, Broken (tagged line) pieces ∧ out.map tagged = pieces.filter (fun p => !p.isEmpty) ∧ pieces.map (List.map (·.1)) = texts k ps := by
  cases ps with
  | nil => exact absurd rfl h0
  | cons p ps =>
    obtain ⟨h1, h2⟩ := slices_spec (p :: ps).flatten (flat 0 line) k ps [] p [] (flat 0 line) (hne p (by simp))
      (fun q hq => hne q (List.mem_cons_of_mem _ hq)) rfl rfl rfl (by rw [flat_text]; exact hw.1)
    refine ⟨_, by rw [← flat_plain line 0]; exact broken_plain h1, ?_, ?_⟩
    · rw [ho]
      exact lines_spec (flat_consistent line) h1
    · rw [← h2, List.map_map]
      congr 1
      funext q
      simp [plain]

theorem tagged_text (l : List (Seg α)) : (tagged l).map (·.1) = textOf l := by
  rw [← flat_plain l 0, ← flat_text l 0]
  simp [plain]

theorem texts_lines {out : List (List (Seg α))} {pieces : List (List (Char × α))} (h : out.map tagged = pieces.filter (fun p => !p.isEmpty)) :
    out.map textOf = (pieces.map (List.map (·.1))).filter (fun p => !p.isEmpty) := by
  have : out.map textOf = (out.map tagged).map (List.map (·.1)) := by
    rw [List.map_map]
    congr 1
    funext l
    exact (tagged_text l).symm
  rw [this, h, List.filter_map]
  congr 1
  congr 1
  funext l
  simp [Function.comp]

end Verif.Wrap
