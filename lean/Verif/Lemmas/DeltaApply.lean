import Verif.Spec.DeltaApply
import Verif.Lemmas.Search
import Verif.Lemmas.Doc
import Verif.Lemmas.Bytes
import Verif.Lemmas.StrX
/-!
# Lemmas about section deltas
-/
namespace Verif.DeltaApply
open Verif Verif.Pos Verif.Doc Verif.Spec.DeltaApply
open Verif.Spec.Srch (Occurs)
open Verif.Update (Kind kind)

theorem header_eq (k : Kind) : header k = head k := by cases k <;> rfl

/-- `s` does not contain `pat`. -/
abbrev Lacks (pat s : Str) : Prop := ∀ a b, s ≠ a ++ pat ++ b

/-- Empty or starting with an opening bracket. -/
abbrev Opens (s : Str) : Prop := s = [] ∨ ∃ r, s = '[' :: r

theorem head_shape (k : Kind) : ∃ ps, head k = '[' :: ps ∧ '[' ∉ ps := by
  cases k
  · exact ⟨"Script Info]".toList, rfl, by decide⟩
  · exact ⟨"V4+ Styles]".toList, rfl, by decide⟩
  · exact ⟨"Events]".toList, rfl, by decide⟩
  · exact ⟨"Fonts]".toList, rfl, by decide⟩
  · exact ⟨"Graphics]".toList, rfl, by decide⟩

theorem lacks_append {k : Kind} {x y : Str} (hx : Lacks (head k) x) (hy : Lacks (head k) y) (ho : Opens y) :
    Lacks (head k) (x ++ y) := by
  obtain ⟨ps, hps, hn⟩ := head_shape k
  intro a b h
  rw [List.append_assoc] at h
  rcases List.append_eq_append_iff.1 h with ⟨c, rfl, h2⟩ | ⟨c, rfl, h2⟩
  · exact hy c b (by rw [h2, List.append_assoc])
  · rcases List.append_eq_append_iff.1 h2.symm with ⟨d, h3, h4⟩ | ⟨d, h3, h4⟩
    · cases d with
      | nil =>
        rw [List.append_nil] at h3
        exact hx a [] (by rw [← h3, List.append_nil])
      | cons e d =>
        rcases ho with rfl | ⟨r, rfl⟩
        · cases b <;> simp at h4
        · have h5 : '[' = e := (List.cons.inj h4).1
          subst h5
          cases c with
          | nil => exact hy [] b (by rw [h3, h4]; rfl)
          | cons f c =>
            rw [hps] at h3
            have h6 := (List.cons.inj h3).2
            exact hn (by rw [h6]; simp)
    · exact hx a d (by rw [h3, List.append_assoc])

theorem find_lacks {pat s : Str} : Search.find pat s = none ↔ Lacks pat s := by
  rw [Search.find_none]
  constructor
  · intro h a b e
    exact h _ ⟨a, b, e, rfl⟩
  · rintro h o ⟨a, b, e, _⟩
    exact h a b e

theorem find_first {k : Kind} {a : Str} (h : Lacks (head k) a) (b : Str) :
    Search.find (head k) (a ++ (head k ++ b)) = some (byteLen a) := by
  obtain ⟨ps, hps, hn⟩ := head_shape k
  induction a with
  | nil =>
    rw [List.nil_append, hps]
    show (if List.isPrefixOf ('[' :: ps) ('[' :: (ps ++ b)) then some 0 else _) = _
    rw [if_pos (show List.isPrefixOf ('[' :: ps) ('[' :: (ps ++ b)) = true from List.isPrefixOf_iff_prefix.2 ⟨b, rfl⟩)]
    rfl
  | cons c a ih =>
    rw [List.cons_append]
    show (if List.isPrefixOf (head k) (c :: (a ++ (head k ++ b))) then some 0 else _) = _
    rw [if_neg, ih (fun x y e => h (c :: x) y (by rw [e]; rfl))]
    · simp [byteLen]
      omega
    · intro hp
      obtain ⟨r, hr⟩ := List.isPrefixOf_iff_prefix.1 hp
      have h2 : head k ++ r = (c :: a) ++ (head k ++ b) := hr
      rcases List.append_eq_append_iff.1 h2 with ⟨d, h3, h4⟩ | ⟨d, h3, h4⟩
      · exact h [] d (by rw [h3]; rfl)
      · cases d with
        | nil => exact h [] [] (by rw [h3]; simp)
        | cons e d =>
          rw [hps] at h3 h4
          have : '[' = e := (List.cons.inj h4).1
          subst this
          have h6 := (List.cons.inj h3).2
          exact hn (by rw [h6]; simp)

/-- The character after the bracket. -/
def second : Kind → Char
  | .info => 'S'
  | .styles => 'V'
  | .events => 'E'
  | .fonts => 'F'
  | .graphics => 'G'

theorem second_eq (k : Kind) (r : Str) : (head k ++ r)[1]? = some (second k) := by cases k <;> rfl

theorem head_ne_prefix {k k' : Kind} (h : k ≠ k') (r b : Str) : head k ++ r ≠ head k' ++ b := by
  intro e
  have e2 := congrArg (fun l : Str => l[1]?) e
  simp only [second_eq] at e2
  exact h (by cases k <;> cases k' <;> first | rfl | exact absurd e2 (by decide))

theorem section_lacks {k k' : Kind} {t : Str} (h : IsSection k' t) (hk : k ≠ k') : Lacks (head k) t := by
  obtain ⟨b, rfl, hb⟩ := h
  obtain ⟨ps, hps, hn⟩ := head_shape k
  obtain ⟨ps', hps', hn'⟩ := head_shape k'
  intro x y e
  cases x with
  | nil => exact head_ne_prefix hk y b (by rw [e]; rfl)
  | cons c x =>
    rw [hps'] at e
    have e2 : ps' ++ b = x ++ (head k ++ y) := by
      have h1 : ps' ++ b = x ++ head k ++ y := (List.cons.inj e).2
      rw [h1, List.append_assoc]
    rcases List.append_eq_append_iff.1 e2 with ⟨d, rfl, h2⟩ | ⟨d, rfl, h2⟩
    · exact hb k d y (by rw [h2, List.append_assoc])
    · cases d with
      | nil => exact hb k [] y (by rw [← List.nil_append b, ← h2]; rfl)
      | cons f d =>
        rw [hps] at h2
        have : '[' = f := (List.cons.inj h2).1
        subst this
        exact hn' (by simp)

theorem section_opens {k : Kind} {t : Str} (h : IsSection k t) : ∃ r, t = '[' :: r := by
  obtain ⟨b, rfl, _⟩ := h
  obtain ⟨ps, hps, _⟩ := head_shape k
  exact ⟨ps ++ b, by rw [hps]; rfl⟩

/-- A section with its index in the script. -/
abbrev Item := Nat × Kind × Str

/-- The text of some sections. -/
def flat : List Item → Str
  | [] => []
  | (_, _, t) :: l => t ++ flat l

theorem flat_append (l m : List Item) : flat (l ++ m) = flat l ++ flat m := by
  induction l with
  | nil => rfl
  | cons p l ih =>
    obtain ⟨i, k, t⟩ := p
    show t ++ flat (l ++ m) = t ++ flat l ++ flat m
    rw [ih, List.append_assoc]

/-- Sections as they are indexed in the script. -/
structure Good (ks : List Kind) (cur : List Item) : Prop where
  sec : ∀ p ∈ cur, ks[p.1]? = some p.2.1 ∧ IsSection p.2.1 p.2.2
  once : (cur.map (fun p => p.2.1)).Nodup

theorem flat_opens {l : List Item} (h : ∀ p ∈ l, IsSection p.2.1 p.2.2) : Opens (flat l) := by
  cases l with
  | nil => exact .inl rfl
  | cons p l =>
    obtain ⟨i, k, t⟩ := p
    obtain ⟨r, hr⟩ := section_opens (h _ (List.mem_cons_self ..))
    refine .inr ⟨r ++ flat l, ?_⟩
    show t ++ flat l = _
    rw [show t = '[' :: r from hr]
    rfl

theorem flat_lacks {k : Kind} {l : List Item} (h : ∀ p ∈ l, IsSection p.2.1 p.2.2) (hk : ∀ p ∈ l, p.2.1 ≠ k) :
    Lacks (head k) (flat l) := by
  induction l with
  | nil =>
    intro a b e
    obtain ⟨ps, hps, _⟩ := head_shape k
    rw [hps] at e
    cases a <;> simp [flat] at e
  | cons p l ih =>
    obtain ⟨i, k', t⟩ := p
    have h' := fun q hq => h q (List.mem_cons_of_mem _ hq)
    exact lacks_append (section_lacks (h _ (List.mem_cons_self ..)) (fun e => hk _ (List.mem_cons_self ..) e.symm))
      (ih h' (fun q hq => hk q (List.mem_cons_of_mem _ hq))) (flat_opens h')

theorem nearer_spec {t : Str} {k : Kind} (ht : IsSection k t) {l : List Item}
    (hl : ∀ p ∈ l, IsSection p.2.1 p.2.2) (hon : (l.map (fun p => p.2.1)).Nodup) (hk : ∀ p ∈ l, p.2.1 ≠ k) (k' : Kind) {fin : Nat}
    (hf : byteLen t ≤ fin) :
    byteLen t ≤ nearer (t ++ flat l) fin k' ∧ nearer (t ++ flat l) fin k' ≤ fin ∧
    ((∃ p m, l = p :: m ∧ p.2.1 = k') → nearer (t ++ flat l) fin k' = byteLen t) := by
  unfold nearer
  rw [header_eq]
  by_cases e : k' = k
  · subst e
    obtain ⟨b, rfl, _⟩ := ht
    have h0 : Search.find (head k') (head k' ++ b ++ flat l) = some 0 := by
      have := find_first (k := k') (a := []) (fun a b e => by
        obtain ⟨ps, hps, _⟩ := head_shape k'
        rw [hps] at e
        cases a <;> simp at e) (b ++ flat l)
      rw [List.nil_append] at this
      rw [List.append_assoc, this]
      rfl
    rw [h0]
    refine ⟨by simpa using hf, by simp, ?_⟩
    rintro ⟨p, m, rfl, h2⟩
    exact absurd h2 (hk p (List.mem_cons_self ..))
  · have hlt := section_lacks ht e
    have hpos : byteLen t > 0 := by
      obtain ⟨r, rfl⟩ := section_opens ht
      simp [byteLen]
      have : ('[' : Char).utf8Size = 1 := by decide
      omega
    by_cases hin : ∃ p ∈ l, p.2.1 = k'
    · obtain ⟨p, hp, rfl⟩ := hin
      obtain ⟨m1, m2, rfl⟩ := List.append_of_mem hp
      obtain ⟨i, k', t'⟩ := p
      obtain ⟨b, hb, _⟩ := hl _ hp
      replace hb : t' = head k' ++ b := hb
      subst hb
      have h1 : ∀ p ∈ m1, p.2.1 ≠ k' := by
        intro q hq e2
        rw [List.map_append, List.map_cons, List.nodup_append] at hon
        exact hon.2.2 k' (List.mem_map.2 ⟨q, hq, e2⟩) k' (List.mem_cons_self ..) rfl
      have hl1 : ∀ p ∈ m1, IsSection p.2.1 p.2.2 := fun q hq => hl q (List.mem_append.2 (.inl hq))
      have h2 := find_first (lacks_append hlt (flat_lacks hl1 h1) (flat_opens hl1)) (b ++ flat m2)
      have h3 : t ++ flat m1 ++ (head k' ++ (b ++ flat m2)) = t ++ flat (m1 ++ (i, k', head k' ++ b) :: m2) := by
        rw [flat_append]
        show _ = t ++ (flat m1 ++ (head k' ++ b ++ flat m2))
        simp only [List.append_assoc]
      rw [h3] at h2
      show _ ≤ (match Search.find (head k') (t ++ flat (m1 ++ (i, k', head k' ++ b) :: m2)) with
        | some pos => if pos > 0 then min fin pos else fin | none => fin) ∧ (match Search.find (head k') (t ++ flat (m1 ++ (i, k', head k' ++ b) :: m2)) with
        | some pos => if pos > 0 then min fin pos else fin | none => fin) ≤ _ ∧ (_ → (match Search.find (head k') (t ++ flat (m1 ++ (i, k', head k' ++ b) :: m2)) with
        | some pos => if pos > 0 then min fin pos else fin | none => fin) = _)
      rw [h2]
      have h4 : byteLen (t ++ flat m1) = byteLen t + byteLen (flat m1) := byteLen_append ..
      show _ ≤ (if byteLen (t ++ flat m1) > 0 then min fin (byteLen (t ++ flat m1)) else fin) ∧ (if byteLen (t ++ flat m1) > 0 then min fin (byteLen (t ++ flat m1)) else fin) ≤ _ ∧ (_ → (if byteLen (t ++ flat m1) > 0 then min fin (byteLen (t ++ flat m1)) else fin) = _)
      rw [if_pos (by omega)]
      refine ⟨by omega, by omega, ?_⟩
      rintro ⟨p, m, h5, h6⟩
      cases m1 with
      | nil =>
        have : byteLen (flat ([] : List Item)) = 0 := rfl
        omega
      | cons q m1 =>
        have := (List.cons.inj h5).1
        subst this
        exact absurd h6 (h1 _ (List.mem_cons_self ..))
    · have hno : ∀ p ∈ l, p.2.1 ≠ k' := fun p hp e2 => hin ⟨p, hp, e2⟩
      rw [find_lacks.2 (lacks_append hlt (flat_lacks hl hno) (flat_opens hl))]
      refine ⟨hf, Nat.le_refl _, ?_⟩
      rintro ⟨p, m, rfl, h2⟩
      exact absurd h2 (hno p (List.mem_cons_self ..))

theorem fold_spec {t : Str} {k : Kind} (ht : IsSection k t) {l : List Item}
    (hl : ∀ p ∈ l, IsSection p.2.1 p.2.2) (hon : (l.map (fun p => p.2.1)).Nodup) (hk : ∀ p ∈ l, p.2.1 ≠ k) (ks : List Kind) {fin : Nat}
    (hf : byteLen t ≤ fin) :
    byteLen t ≤ ks.foldl (nearer (t ++ flat l)) fin ∧ ks.foldl (nearer (t ++ flat l)) fin ≤ fin ∧
    ((∃ p m, l = p :: m ∧ p.2.1 ∈ ks) → ks.foldl (nearer (t ++ flat l)) fin = byteLen t) := by
  induction ks generalizing fin with
  | nil =>
    refine ⟨hf, Nat.le_refl _, ?_⟩
    rintro ⟨p, m, _, h⟩
    cases h
  | cons k' ks ih =>
    obtain ⟨h1, h2, h3⟩ := nearer_spec ht hl hon hk k' hf
    obtain ⟨g1, g2, g3⟩ := ih h1
    rw [List.foldl_cons]
    refine ⟨g1, Nat.le_trans g2 h2, ?_⟩
    rintro ⟨p, m, e, hm⟩
    rcases List.mem_cons.1 hm with hm | hm
    · have := h3 ⟨p, m, e, hm⟩
      rw [this] at g2 g1 ⊢
      omega
    · exact g3 ⟨p, m, e, hm⟩

theorem find_section {pre : Str} (hpre : Headless pre) {l1 l2 : List Item} {i : Nat} {k : Kind} {t : Str}
    (hs : ∀ p ∈ l1 ++ (i, k, t) :: l2, IsSection p.2.1 p.2.2) (hon : ((l1 ++ (i, k, t) :: l2).map (fun p => p.2.1)).Nodup) :
    findStart (pre ++ flat l1 ++ t ++ flat l2) k = some (byteLen (pre ++ flat l1)) ∧
    findEnd (pre ++ flat l1 ++ t ++ flat l2) k = .ok (byteLen (pre ++ flat l1) + byteLen t) := by
  rw [List.map_append, List.map_cons, List.nodup_append] at hon
  obtain ⟨_, hc, hd⟩ := hon
  have h1 : ∀ p ∈ l1, p.2.1 ≠ k := fun q hq e2 => hd k (List.mem_map.2 ⟨q, hq, e2⟩) k (List.mem_cons_self ..) rfl
  have h2 : ∀ p ∈ l2, p.2.1 ≠ k := fun q hq e2 => (List.nodup_cons.1 hc).1 (List.mem_map.2 ⟨q, hq, e2⟩)
  have hl1 : ∀ p ∈ l1, IsSection p.2.1 p.2.2 := fun q hq => hs q (List.mem_append.2 (.inl hq))
  have hl2 : ∀ p ∈ l2, IsSection p.2.1 p.2.2 := fun q hq => hs q (List.mem_append.2 (.inr (List.mem_cons_of_mem _ hq)))
  have ht : IsSection k t := hs (i, k, t) (List.mem_append.2 (.inr (List.mem_cons_self ..)))
  obtain ⟨b, rfl, hb⟩ := ht
  have hstart : findStart (pre ++ flat l1 ++ (head k ++ b) ++ flat l2) k = some (byteLen (pre ++ flat l1)) := by
    have := find_first (lacks_append (hpre k) (flat_lacks hl1 h1) (flat_opens hl1)) (b ++ flat l2)
    unfold findStart
    rw [header_eq, ← this]
    simp only [List.append_assoc]
  refine ⟨hstart, ?_⟩
  unfold findEnd
  rw [hstart]
  have hdrop : dropBytes (pre ++ flat l1 ++ (head k ++ b) ++ flat l2) (byteLen (pre ++ flat l1)) = some (head k ++ b ++ flat l2) := by
    rw [List.append_assoc _ (head k ++ b)]
    exact dropBytes_append _ _
  show (match dropBytes (pre ++ flat l1 ++ (head k ++ b) ++ flat l2) (byteLen (pre ++ flat l1)) with
    | none => Outcome.panic | some content => _) = _
  rw [hdrop]
  show Outcome.ok _ = _
  congr 2
  obtain ⟨g1, g2, g3⟩ := fold_spec (k := k) ⟨b, rfl, hb⟩ hl2 (List.nodup_cons.1 hc).2 h2 [Kind.info, .styles, .events, .fonts, .graphics]
    (fin := byteLen (head k ++ b ++ flat l2)) (by rw [byteLen_append _ (flat l2)]; omega)
  cases hl : l2 with
  | nil =>
    subst hl
    rw [show flat ([] : List Item) = [] from rfl, List.append_nil] at *
    omega
  | cons p m =>
    rw [← hl]
    exact g3 ⟨p, m, hl, by cases p.2.1 <;> decide⟩

/-- What one operation does to a section. -/
def step (i : Nat) (t : Option Str) (p : Item) : Option Item :=
  if p.1 = i then t.map (fun t => (p.1, p.2.1, t)) else some p

theorem filterMap_id {l : List Item} {f : Item → Option Item} (h : ∀ p ∈ l, f p = some p) : l.filterMap f = l := by
  induction l with
  | nil => rfl
  | cons p l ih =>
    rw [List.filterMap_cons, h p (List.mem_cons_self ..), ih (fun q hq => h q (List.mem_cons_of_mem _ hq))]

theorem step_other {i : Nat} {t : Option Str} {l : List Item} (h : ∀ p ∈ l, p.1 ≠ i) : l.filterMap (step i t) = l :=
  filterMap_id (fun p hp => by unfold step; rw [if_neg (h p hp)])

theorem good_step {ks : List Kind} {cur : List Item} (hg : Good ks cur) {i : Nat} {t : Option Str}
    (ht : ∀ k, ks[i]? = some k → ∀ x, t = some x → IsSection k x) : Good ks (cur.filterMap (step i t)) := by
  constructor
  · intro p hp
    obtain ⟨q, hq, e⟩ := List.mem_filterMap.1 hp
    obtain ⟨h1, h2⟩ := hg.sec q hq
    unfold step at e
    by_cases hi : q.1 = i
    · rw [if_pos hi] at e
      cases t with
      | none => cases e
      | some x =>
        cases e
        exact ⟨h1, ht _ (hi ▸ h1) x rfl⟩
    · rw [if_neg hi] at e
      cases e
      exact ⟨h1, h2⟩
  · have key : ∀ l : List Item, (l.filterMap (step i t)).map (fun p => p.2.1) |>.Sublist (l.map (fun p => p.2.1)) := by
      intro l
      induction l with
      | nil => exact .slnil
      | cons p l ih =>
        rw [List.filterMap_cons]
        unfold step
        by_cases hi : p.1 = i
        · rw [if_pos hi]
          cases t with
          | none => exact ih.cons _
          | some x => exact ih.cons_cons _
        · rw [if_neg hi]
          exact ih.cons_cons _
    exact (key cur).nodup hg.once

theorem changeSection_spec {ks : List Kind} {pre : Str} (hpre : Headless pre) {cur : List Item} (hg : Good ks cur)
    {i : Nat} (hi : i < ks.length → ∃ p ∈ cur, p.1 = i) (t : Option Str) :
    changeSection ks (pre ++ flat cur) i t = (.ok (), pre ++ flat (cur.filterMap (step i t))) := by
  unfold changeSection
  cases hk : ks[i]? with
  | none =>
    show (_, _) = _
    rw [step_other]
    intro p hp e
    have := (hg.sec p hp).1
    rw [e, hk] at this
    cases this
  | some k =>
    obtain ⟨p, hp, rfl⟩ := hi (by
      rcases Nat.lt_or_ge i ks.length with h | h
      · exact h
      · rw [List.getElem?_eq_none h] at hk
        cases hk)
    obtain ⟨l1, l2, rfl⟩ := List.append_of_mem hp
    obtain ⟨i, k', x⟩ := p
    have hk' : k' = k := Option.some.inj ((hg.sec _ hp).1.symm.trans hk)
    subst hk'
    have hother : ∀ q ∈ l1 ++ l2, q.1 ≠ i := by
      intro q hq e
      have hq' : q ∈ l1 ++ (i, k', x) :: l2 := by
        rcases List.mem_append.1 hq with h | h
        · exact List.mem_append.2 (.inl h)
        · exact List.mem_append.2 (.inr (List.mem_cons_of_mem _ h))
      have h1 := (hg.sec q hq').1
      rw [e] at h1
      have h2 : q.2.1 = k' := Option.some.inj (h1.symm.trans hk)
      have hon := hg.once
      rw [List.map_append, List.map_cons, List.nodup_append] at hon
      rcases List.mem_append.1 hq with h | h
      · exact hon.2.2 k' (List.mem_map.2 ⟨q, h, h2⟩) k' (List.mem_cons_self ..) rfl
      · exact (List.nodup_cons.1 hon.2.1).1 (List.mem_map.2 ⟨q, h, h2⟩)
    obtain ⟨hs, hf⟩ := find_section hpre (fun q hq => (hg.sec q hq).2) hg.once
    have htext : pre ++ flat (l1 ++ (i, k', x) :: l2) = pre ++ flat l1 ++ x ++ flat l2 := by
      rw [flat_append]
      show pre ++ (flat l1 ++ (x ++ flat l2)) = _
      simp only [List.append_assoc]
    rw [htext]
    show (match findStart (pre ++ flat l1 ++ x ++ flat l2) k' with
      | none => _ | some start => _) = _
    rw [hs]
    show (match findEnd (pre ++ flat l1 ++ x ++ flat l2) k' with
      | .ok fin => _ | .err => _ | .panic => _) = _
    rw [hf]
    have hr : Range.new (byteLen (pre ++ flat l1)) (byteLen (pre ++ flat l1) + byteLen x) =
        ⟨byteLen (pre ++ flat l1), byteLen (pre ++ flat l1) + byteLen x⟩ := new_of_le (Nat.le_add_right ..)
    have ho1 := step_other (t := t) (fun q hq => hother q (List.mem_append.2 (.inl hq)) : ∀ p ∈ l1, p.1 ≠ i)
    have ho2 := step_other (t := t) (fun q hq => hother q (List.mem_append.2 (.inr hq)) : ∀ p ∈ l2, p.1 ≠ i)
    cases t with
    | none =>
      show deleteRaw _ (Range.new _ _) = _
      rw [hr, deleteRaw_at, List.filterMap_append, List.filterMap_cons]
      have : step i none (i, k', x) = none := by unfold step; rw [if_pos rfl]; rfl
      rw [this, ho1, ho2, flat_append]
      simp only [List.append_assoc]
    | some y =>
      show replaceRaw _ (Range.new _ _) y = _
      rw [hr, replaceRaw_at, List.filterMap_append, List.filterMap_cons]
      have : step i (some y) (i, k', x) = some (i, k', y) := by unfold step; rw [if_pos rfl]; rfl
      rw [this, ho1, ho2, flat_append]
      show _ = (_, pre ++ (flat l1 ++ (y ++ flat l2)))
      simp only [List.append_assoc]

/-- What a list of operations does to a section. -/
def steps (ops : List (Nat × Option Str)) (p : Item) : Option Item :=
  match ops.lookup p.1 with
  | none => some p
  | some none => none
  | some (some t) => some (p.1, p.2.1, t)

theorem lookup_none {ops : List (Nat × Option Str)} {i : Nat} (h : i ∉ ops.map (·.1)) : ops.lookup i = none := by
  induction ops with
  | nil => rfl
  | cons o ops ih =>
    obtain ⟨j, t⟩ := o
    have h1 : i ≠ j := fun e => h (by rw [e]; exact List.mem_cons_self ..)
    rw [List.lookup_cons, show (i == j) = false from beq_eq_false_iff_ne.2 h1]
    exact ih (fun hm => h (List.mem_cons_of_mem _ hm))

theorem steps_cons {i : Nat} {t : Option Str} {ops : List (Nat × Option Str)} (h : i ∉ ops.map (·.1)) (p : Item) :
    (step i t p).bind (steps ops) = steps ((i, t) :: ops) p := by
  unfold step
  by_cases hp : p.1 = i
  · rw [if_pos hp]
    have h1 : List.lookup p.1 ((i, t) :: ops) = some t := by
      rw [List.lookup_cons, show (p.1 == i) = true from beq_iff_eq.2 hp]
    unfold steps
    rw [h1]
    cases t with
    | none => rfl
    | some x =>
      show (match ops.lookup p.1 with | none => some (p.1, p.2.1, x) | some none => none | some (some t) => some (p.1, p.2.1, t)) = _
      rw [lookup_none (by rw [hp]; exact h)]
  · rw [if_neg hp]
    have h1 : List.lookup p.1 ((i, t) :: ops) = ops.lookup p.1 := by
      rw [List.lookup_cons, show (p.1 == i) = false from beq_eq_false_iff_ne.2 hp]
    show steps ops p = _
    unfold steps
    rw [h1]

theorem changeAll_spec {ks : List Kind} {pre : Str} (hpre : Headless pre) (ops : List (Nat × Option Str))
    (hn : (ops.map (·.1)).Nodup) (ht : ∀ o ∈ ops, ∀ k, ks[o.1]? = some k → ∀ x, o.2 = some x → IsSection k x) :
    ∀ cur, Good ks cur → (∀ o ∈ ops, o.1 < ks.length → ∃ p ∈ cur, p.1 = o.1) →
      changeAll ks ops (pre ++ flat cur) = (.ok (), pre ++ flat (cur.filterMap (steps ops))) ∧
      Good ks (cur.filterMap (steps ops)) := by
  induction ops with
  | nil =>
    intro cur hg _
    have : cur.filterMap (steps []) = cur := filterMap_id (fun p _ => rfl)
    rw [this]
    exact ⟨rfl, hg⟩
  | cons o ops ih =>
    intro cur hg hi
    obtain ⟨i, t⟩ := o
    rw [List.map_cons, List.nodup_cons] at hn
    have h1 := changeSection_spec hpre hg (hi _ (List.mem_cons_self ..)) t
    have hg' : Good ks (cur.filterMap (step i t)) := good_step hg (ht _ (List.mem_cons_self ..))
    have h2 := ih hn.2 (fun o ho => ht o (List.mem_cons_of_mem _ ho)) _ hg' (by
      intro o ho hlt
      obtain ⟨p, hp, e⟩ := hi o (List.mem_cons_of_mem _ ho) hlt
      refine ⟨p, List.mem_filterMap.2 ⟨p, hp, ?_⟩, e⟩
      unfold step
      rw [if_neg]
      intro e2
      exact hn.1 (List.mem_map.2 ⟨o, ho, by rw [← e, e2]⟩))
    have h3 : (cur.filterMap (step i t)).filterMap (steps ops) = cur.filterMap (steps ((i, t) :: ops)) := by
      rw [List.filterMap_filterMap]
      congr 1
      funext p
      exact steps_cons hn.1 p
    rw [h3] at h2
    refine ⟨?_, h2.2⟩
    show (match changeSection ks (pre ++ flat cur) i t with | (.ok _, text') => changeAll ks ops text' | (o, text') => (o, text')) = _
    rw [h1]
    exact h2.1

theorem mem_insertDesc {n m : Nat} {l : List Nat} : m ∈ insertDesc n l ↔ m = n ∨ m ∈ l := by
  induction l with
  | nil => simp [insertDesc]
  | cons a l ih =>
    unfold insertDesc
    split
    · simp
    · simp [ih]
      grind

theorem mem_sortDesc {m : Nat} {l : List Nat} : m ∈ sortDesc l ↔ m ∈ l := by
  induction l with
  | nil => simp [sortDesc]
  | cons a l ih => simp [sortDesc, mem_insertDesc, ih]

theorem nodup_insertDesc {n : Nat} {l : List Nat} (h : l.Nodup) (hn : n ∉ l) : (insertDesc n l).Nodup := by
  induction l with
  | nil => simp [insertDesc]
  | cons a l ih =>
    unfold insertDesc
    split
    · exact List.nodup_cons.2 ⟨hn, h⟩
    · rw [List.nodup_cons] at h
      refine List.nodup_cons.2 ⟨?_, ih h.2 (fun hm => hn (List.mem_cons_of_mem _ hm))⟩
      intro hm
      rcases mem_insertDesc.1 hm with e | hm
      · exact hn (by rw [e]; exact List.mem_cons_self ..)
      · exact h.1 hm

theorem nodup_sortDesc {l : List Nat} (h : l.Nodup) : (sortDesc l).Nodup := by
  induction l with
  | nil => exact .nil
  | cons a l ih =>
    rw [List.nodup_cons] at h
    exact nodup_insertDesc (ih h.2) (fun hm => h.1 (mem_sortDesc.1 hm))

/-- Sections with their indices from `i` on. -/
def items : Nat → List (Kind × Str) → List Item
  | _, [] => []
  | i, (k, t) :: l => (i, k, t) :: items (i + 1) l

theorem flat_items (i : Nat) (l : List (Kind × Str)) : flat (items i l) = (l.map (·.2)).flatten := by
  induction l generalizing i with
  | nil => rfl
  | cons p l ih =>
    obtain ⟨k, t⟩ := p
    show t ++ flat (items (i + 1) l) = t ++ (l.map (·.2)).flatten
    rw [ih]

theorem items_kinds (i : Nat) (l : List (Kind × Str)) : (items i l).map (fun p => p.2.1) = l.map (·.1) := by
  induction l generalizing i with
  | nil => rfl
  | cons p l ih =>
    obtain ⟨k, t⟩ := p
    show k :: (items (i + 1) l).map _ = k :: _
    rw [ih]

theorem mem_items {i : Nat} {l : List (Kind × Str)} {p : Item} (h : p ∈ items i l) :
    ∃ j, p.1 = i + j ∧ l[j]? = some p.2 := by
  induction l generalizing i with
  | nil => cases h
  | cons q l ih =>
    obtain ⟨k, t⟩ := q
    rcases List.mem_cons.1 h with rfl | h
    · exact ⟨0, rfl, rfl⟩
    · obtain ⟨j, h1, h2⟩ := ih h
      exact ⟨j + 1, by omega, by simpa using h2⟩

theorem has_items (i : Nat) (l : List (Kind × Str)) {j : Nat} (h : j < l.length) : ∃ p ∈ items i l, p.1 = i + j := by
  induction l generalizing i j with
  | nil => cases h
  | cons q l ih =>
    obtain ⟨k, t⟩ := q
    cases j with
    | zero => exact ⟨_, List.mem_cons_self .., rfl⟩
    | succ j =>
      obtain ⟨p, hp, e⟩ := ih (i + 1) (j := j) (by simpa using h)
      exact ⟨p, List.mem_cons_of_mem _ hp, by omega⟩

theorem lookup_removed (l : List Nat) (i : Nat) :
    (l.map (fun i => (i, (none : Option Str)))).lookup i = if i ∈ l then some none else none := by
  induction l with
  | nil => rfl
  | cons a l ih =>
    rw [List.map_cons, List.lookup_cons]
    by_cases h : i = a
    · subst h
      simp
    · rw [show (i == a) = false from beq_eq_false_iff_ne.2 h]
      simp only [ih, List.mem_cons, h, false_or]

theorem lookup_modified (l : List (Nat × Str)) (i : Nat) :
    (l.map (fun p => (p.1, some p.2))).lookup i = (l.lookup i).map some := by
  induction l with
  | nil => rfl
  | cons a l ih =>
    obtain ⟨j, t⟩ := a
    rw [List.map_cons, List.lookup_cons, List.lookup_cons]
    by_cases h : i = j
    · subst h
      simp
    · rw [show (i == j) = false from beq_eq_false_iff_ne.2 h]
      exact ih

theorem flat_changed (removed : List Nat) (modified : List (Nat × Str)) (i : Nat) (l : List (Kind × Str)) :
    flat (((items i l).filterMap (steps ((sortDesc removed).map (fun i => (i, none))))).filterMap
      (steps (modified.map (fun p => (p.1, some p.2))))) = ((changed removed modified i l).map (·.2)).flatten := by
  induction l generalizing i with
  | nil => rfl
  | cons p l ih =>
    obtain ⟨k, t⟩ := p
    show flat (((((i, k, t) : Item) :: items (i + 1) l).filterMap _).filterMap _) = _
    rw [List.filterMap_cons]
    unfold changed
    by_cases h : i ∈ removed
    · have h1 : steps ((sortDesc removed).map (fun i => (i, none))) (i, k, t) = none := by
        unfold steps
        rw [lookup_removed, if_pos (mem_sortDesc.2 h)]
      rw [h1, if_pos h]
      exact ih (i + 1)
    · have h1 : steps ((sortDesc removed).map (fun i => (i, none))) (i, k, t) = some (i, k, t) := by
        unfold steps
        rw [lookup_removed, if_neg (fun hm => h (mem_sortDesc.1 hm))]
      rw [h1, if_neg h]
      show flat (List.filterMap _ (((i, k, t) : Item) :: _)) = _
      rw [List.filterMap_cons]
      have h2 : steps (modified.map (fun p => (p.1, some p.2))) (i, k, t) = some (i, k, (modified.lookup i).getD t) := by
        unfold steps
        rw [lookup_modified]
        cases modified.lookup i <;> rfl
      rw [h2]
      show (modified.lookup i).getD t ++ flat _ = (modified.lookup i).getD t ++ _
      rw [ih (i + 1)]

theorem addAll_eq (l : List Str) (s : Str) : addAll l s = l.foldl onOwnLines s := by
  induction l generalizing s with
  | nil => rfl
  | cons t l ih =>
    rw [List.foldl_cons, ← ih]
    show addAll l _ = addAll l _
    congr 1
    unfold onOwnLines endsLf
    by_cases h1 : s = []
    · subst h1
      by_cases h2 : t.getLast? = some '\n' <;> simp [h2]
    · by_cases h3 : s.getLast? = some '\n' <;> by_cases h2 : t.getLast? = some '\n' <;> simp [h1, h2, h3]

end Verif.DeltaApply
