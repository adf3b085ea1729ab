import Verif.Model.Bounds
import Verif.Spec.Bounds
import Verif.Lemmas.Incremental
import Verif.Lemmas.IncEdit
/-! Property C153: finding where sections begin and end. -/
namespace Verif.Props.Bounds
open Verif
open Verif.Update (Kind)
open Verif.Bounds
open Verif.Incremental (headerOf usual_headerOf)
open Verif.Spec.Script (size)
open Verif.Spec.Incremental (usual)
open Verif.Spec.Bounds
open Verif.Spec.IncEdit (Cut)

theorem sz (s : Str) : byteLen s = size s := rfl

theorem size_app (a b : Str) : size (a ++ b) = size a + size b := by
  unfold size; simp

theorem size_le_of_length {a b c d : Str} (h : a ++ b = c ++ d) (hl : size a ≤ size c) : ∃ e, c = a ++ e := by
  rcases List.append_eq_append_iff.1 h with ⟨x, h1, h2⟩ | ⟨x, h1, h2⟩
  · exact ⟨x, h1⟩
  · have : size x = 0 := by
      have := size_app c x
      rw [← h1] at this
      omega
    cases x with
    | nil => exact ⟨[], by simpa using h1.symm⟩
    | cons y ys =>
      unfold size at this
      have := Char.utf8Size_pos y
      simp at *
      omega

/-- The line in which a place lies. -/
theorem line_of (p : Str) : ∃ l m, p = l ++ m ∧ '\n' ∉ m ∧ (l = [] ∨ ∃ t, l = t ++ ['\n']) ∧
    l = (p.reverse.dropWhile (· ≠ '\n')).reverse := by
  refine ⟨(p.reverse.dropWhile (· ≠ '\n')).reverse, (p.reverse.takeWhile (· ≠ '\n')).reverse, ?_, ?_, ?_, rfl⟩
  · rw [← List.reverse_append, List.takeWhile_append_dropWhile, List.reverse_reverse]
  · intro h
    have := List.mem_reverse.1 h
    have h2 : ∀ (q : Str), '\n' ∉ q.takeWhile (· ≠ '\n') := by
      intro q
      induction q with
      | nil => simp
      | cons a q ih =>
        by_cases ha : a = '\n'
        · subst ha; simp
        · rw [List.takeWhile_cons_of_pos (by simpa using ha)]
          intro hm
          rcases List.mem_cons.1 hm with h | h
          · exact ha h.symm
          · exact ih h
    exact h2 _ this
  · cases hd : p.reverse.dropWhile (· ≠ '\n') with
    | nil => exact .inl rfl
    | cons a q =>
      right
      have := List.head?_dropWhile_not (p := (· ≠ '\n')) (l := p.reverse)
      rw [hd] at this
      simp at this
      subst this
      exact ⟨q.reverse, by simp⟩

theorem line_unique {l m l' m' : Str} (h : l ++ m = l' ++ m') (hm : '\n' ∉ m) (hm' : '\n' ∉ m')
    (hl : l = [] ∨ ∃ t, l = t ++ ['\n']) (hl' : l' = [] ∨ ∃ t, l' = t ++ ['\n']) : l = l' := by
  have key : ∀ {l m l' m' x : Str}, l' = l ++ x → m = x ++ m' → '\n' ∉ m → (l' = [] ∨ ∃ t, l' = t ++ ['\n']) → x = [] := by
    intro l m l' m' x h1 h2 h3 h4
    rcases h4 with h4 | ⟨t, h4⟩
    · rw [h4] at h1
      exact (List.append_eq_nil_iff.1 h1.symm).2
    · cases hx : x.getLast? with
      | none => exact List.getLast?_eq_none_iff.1 hx
      | some y =>
        have := congrArg List.getLast? (h1.symm.trans h4)
        rw [List.getLast?_append, hx] at this
        simp at this
        subst this
        exact absurd (by rw [h2]; exact List.mem_append_left _ (List.mem_of_getLast? hx)) h3
  rcases List.append_eq_append_iff.1 h with ⟨x, h1, h2⟩ | ⟨x, h1, h2⟩
  · have := key h1 h2 hm hl'
    rw [this] at h1; simpa using h1.symm
  · have := key h1 h2 hm' hl
    rw [this] at h1; simpa using h1

theorem stands_iff {src : Str} {k : Kind} {p r : Str} (h : src = p ++ usual k ++ r) (n : Nat) :
    Stands src k (size p) n ↔ lineStart src (size p) = .ok n := by
  obtain ⟨l, m, h1, h2, h3, h4⟩ := line_of p
  have e : lineStart src (size p) = .ok (size l) := by
    unfold lineStart
    rw [h, List.append_assoc, ← sz p, takeBytes_append, h4]; rfl
  rw [e]
  constructor
  · rintro ⟨l', m', r', g1, g2, g3, g4, g5⟩
    have : l' ++ m' = p := by
      rw [h, List.append_assoc, List.append_assoc (l' ++ m')] at g1
      obtain ⟨x, hx⟩ := size_le_of_length g1 (by omega)
      obtain ⟨y, hy⟩ := size_le_of_length g1.symm (by omega)
      have := congrArg List.length hx
      have h' := congrArg List.length hy
      simp at this h'
      have : x = [] := by apply List.length_eq_zero_iff.1; omega
      rw [this] at hx; simpa using hx
    have := line_unique (this.trans h1) g2 h2 g3 h3
    rw [← g4, this]
  · intro h
    injection h with h
    exact ⟨l, m, r, by rw [← h1]; assumption, h2, h3, h, by rw [h1]⟩

theorem stands_parts {src : Str} {k : Kind} {e n : Nat} (h : Stands src k e n) :
    ∃ p r, src = p ++ usual k ++ r ∧ size p = e ∧ lineStart src e = .ok n := by
  obtain ⟨l, m, r, h1, h2, h3, h4, h5⟩ := h
  refine ⟨l ++ m, r, h1, h5, ?_⟩
  have := (stands_iff (p := l ++ m) h1 n).1 ⟨l, m, r, h1, h2, h3, h4, rfl⟩
  rw [h5] at this; exact this

theorem stands_some {src : Str} {k : Kind} {p r : Str} (h : src = p ++ usual k ++ r) : ∃ n, Stands src k (size p) n := by
  obtain ⟨l, m, h1, h2, h3, h4⟩ := line_of p
  exact ⟨size l, l, m, r, by rw [← h1]; exact h, h2, h3, rfl, by rw [h1]⟩

theorem cut_size {s : Str} {n : Nat} (h : Cut s n) : n ≤ size s := by
  obtain ⟨p, q, h1, h2⟩ := h
  rw [h1, size_app]; omega

theorem slice_cut {s : Str} {a b : Nat} : (∃ t, sliceBytes s a b = some t) ↔ Cut s a ∧ Cut s b ∧ a ≤ b := by
  constructor
  · rintro ⟨t, h⟩
    obtain ⟨p, r, h1, h2, h3⟩ := sliceBytes_iff.1 h
    refine ⟨⟨p, t ++ r, by rw [h1]; simp, h2⟩, ⟨p ++ t, r, h1, ?_⟩, by omega⟩
    rw [size_app, ← sz, ← sz]; omega
  · rintro ⟨⟨p, q, h1, h2⟩, ⟨p', q', h3, h4⟩, h5⟩
    obtain ⟨t, ht⟩ := size_le_of_length (h1.symm.trans h3) (by omega)
    refine ⟨t, sliceBytes_iff.2 ⟨p, q', by rw [h3, ht], h2, ?_⟩⟩
    rw [ht, size_app] at h4
    rw [sz]; omega

theorem rev_split {h t : Str} : (splitOnceStr h.reverse t.reverse = none ↔ ∀ a b, t ≠ a ++ h ++ b) ∧
    (∀ x b, splitOnceStr h.reverse t.reverse = some (x, b) →
      t = b.reverse ++ h ++ x.reverse ∧ ∀ a' b', t = a' ++ h ++ b' → a'.length ≤ b.length) := by
  constructor
  · rw [splitOnceStr_none]
    constructor
    · intro g a b e
      exact g b.reverse a.reverse (by rw [e]; simp)
    · intro g a b e
      exact g b.reverse a.reverse (by
        have := congrArg List.reverse e
        simpa using this)
  · intro x b g
    obtain ⟨g1, g2⟩ := splitOnceStr_some g
    refine ⟨by have := congrArg List.reverse g1; simpa using this, ?_⟩
    intro a' b' e
    have := g2 b'.reverse a'.reverse (by rw [e]; simp)
    have l1 := congrArg List.length g1
    have l2 := congrArg List.length e
    simp at this l1 l2
    omega

/-- **C153 (the beginning).** The beginning found for a section before a place is the beginning of the line with the last header of
this kind that ends at or before the place, provided it begins at most a hundred bytes (and its own length) before the place; if
there is none so near, it is reported that there is none; the program stops just when the place, or the one from which on it
searches, is within a character, or the latter is behind the end of the source. -/
theorem C153_start (src : Str) (hint : Nat) (k : Kind) :
    (headerStart src hint k = .panic ↔
      ¬ (Cut src (hint - (size (usual k) + 100)) ∧ Cut src (min hint (size src)))) ∧
    (∀ n, headerStart src hint k = .ok n ↔
      Cut src (hint - (size (usual k) + 100)) ∧ Cut src (min hint (size src)) ∧
      ∃ e, Stands src k e n ∧ hint - (size (usual k) + 100) ≤ e ∧ e + size (usual k) ≤ hint ∧
        ∀ e' n', Stands src k e' n' → e' + size (usual k) ≤ hint → e' ≤ e) := by
  have hfrom : hint - (byteLen (headerOf k) + 100) = hint - (size (usual k) + 100) := by rw [usual_headerOf, sz]
  generalize hF : hint - (size (usual k) + 100) = F at *
  have hle : Cut src F → F ≤ min hint (size src) := fun h => by have := cut_size h; omega
  unfold headerStart
  simp only [hfrom]
  rw [sz src]
  cases hs : sliceBytes src F (min hint (size src)) with
  | none =>
    have : ¬ (Cut src F ∧ Cut src (min hint (size src))) := by
      rintro ⟨h1, h2⟩
      obtain ⟨t, ht⟩ := slice_cut.2 ⟨h1, h2, hle h1⟩
      rw [hs] at ht; exact absurd ht (by simp)
    dsimp only
    refine ⟨⟨fun _ => this, fun _ => rfl⟩, fun n => ⟨fun h => absurd h (by simp), fun h => absurd ⟨h.1, h.2.1⟩ this⟩⟩
  | some t =>
    have hc := slice_cut.1 ⟨t, hs⟩
    obtain ⟨p, r, h1, h2, h3⟩ := sliceBytes_iff.1 hs
    rw [sz] at h2 h3
    dsimp only
    -- the header occurrences in the window
    have occ : ∀ e' n', Stands src k e' n' → e' + size (usual k) ≤ hint → F ≤ e' →
        ∃ a b, t = a ++ usual k ++ b ∧ e' = F + size a := by
      intro e' n' hst hb hfe
      obtain ⟨p', r', g1, g2, _⟩ := stands_parts hst
      have e1 : p ++ (t ++ r) = p' ++ (usual k ++ r') := by
        rw [← List.append_assoc, ← h1, g1]; simp
      obtain ⟨a, ha⟩ := size_le_of_length e1 (by omega)
      have e2 : p' ++ usual k ++ r' = p ++ t ++ r := by rw [← g1, h1]
      have hsz := congrArg size e2
      have hsr := congrArg size h1
      obtain ⟨b, hb'⟩ := size_le_of_length e2 (by
        simp only [size_app] at *
        omega)
      refine ⟨a, b, ?_, ?_⟩
      · rw [ha, List.append_assoc, List.append_assoc] at hb'
        have := List.append_cancel_left hb'
        rw [this]; simp
      · rw [← g2, ha, size_app]; omega
    rw [usual_headerOf]
    cases hsp : splitOnceStr (usual k).reverse t.reverse with
    | none =>
      dsimp only
      have hno := (rev_split.1).1 hsp
      refine ⟨⟨fun h => absurd h (by simp), fun h => absurd ⟨hc.1, hc.2.1⟩ h⟩, fun n => ⟨fun h => absurd h (by simp), ?_⟩⟩
      rintro ⟨_, _, e, h4, h5, h6, _⟩
      obtain ⟨a, b, h7, _⟩ := occ e n h4 h6 h5
      exact absurd h7 (hno a b)
    | some xb =>
      obtain ⟨x, b⟩ := xb
      dsimp only
      obtain ⟨g1, g2⟩ := rev_split.2 x b hsp
      have hsrc : src = (p ++ b.reverse) ++ usual k ++ (x.reverse ++ r) := by
        rw [h1, g1]; simp
      have hpos : F + byteLen b.reverse = size (p ++ b.reverse) := by rw [size_app, sz]; omega
      rw [hpos]
      have hfin : size (p ++ b.reverse) + size (usual k) ≤ hint := by
        have := congrArg size g1
        simp only [size_app] at *
        omega
      have hmax : ∀ e' n', Stands src k e' n' → e' + size (usual k) ≤ hint → e' ≤ size (p ++ b.reverse) := by
        intro e' n' hst hb
        by_cases hfe : F ≤ e'
        · obtain ⟨a, c, h7, h8⟩ := occ e' n' hst hb hfe
          have := g2 a c h7
          rw [g1, List.append_assoc, List.append_assoc] at h7
          have hl : ∃ y, b.reverse = a ++ y := by
            rcases List.append_eq_append_iff.1 h7 with ⟨y, q1, q2⟩ | ⟨y, q1, q2⟩
            · have q3 := congrArg List.length q1
              simp at q3
              have : y = [] := by apply List.length_eq_zero_iff.1; omega
              exact ⟨[], by rw [this] at q1; simpa using q1.symm⟩
            · exact ⟨y, q1⟩
          obtain ⟨y, hy⟩ := hl
          rw [h8, size_app, hy, size_app]; omega
        · rw [size_app]; omega
      obtain ⟨n0, hn0⟩ := stands_some hsrc
      have hl0 := (stands_iff hsrc n0).1 hn0
      refine ⟨⟨fun h => by rw [hl0] at h; exact absurd h (by simp), fun h => absurd ⟨hc.1, hc.2.1⟩ h⟩, fun n => ⟨?_, ?_⟩⟩
      · intro h
        exact ⟨hc.1, hc.2.1, _, (stands_iff hsrc n).2 h, by rw [size_app]; omega, hfin, hmax⟩
      · rintro ⟨_, _, e, h4, h5, h6, h7⟩
        have e1 := hmax e n h4 h6
        have e2 := h7 _ n0 hn0 hfin
        have : e = size (p ++ b.reverse) := by omega
        rw [this] at h4
        exact (stands_iff hsrc n).1 h4

theorem nearest_iff (t : Str) (ks : List Kind) : ∀ (m : Option Nat),
    match ks.foldl (fun m k => match splitOnceStr (headerOf k) t with
      | none => m
      | some (a, _) => some (least m (byteLen a))) m with
    | none => m = none ∧ ∀ k ∈ ks, ∀ a b, t ≠ a ++ usual k ++ b
    | some x => (m = some x ∨ ∃ k ∈ ks, ∃ a b, t = a ++ usual k ++ b ∧ size a = x) ∧ (∀ y, m = some y → x ≤ y) ∧
        ∀ k ∈ ks, ∀ a b, t = a ++ usual k ++ b → x ≤ size a := by
  induction ks with
  | nil =>
    intro m
    cases m with
    | none => simp
    | some x => simp
  | cons k ks ih =>
    intro m
    rw [List.foldl_cons]
    rw [usual_headerOf]
    cases hs : splitOnceStr (usual k) t with
    | none =>
      dsimp only
      have hno := splitOnceStr_none.1 hs
      have := ih m
      revert this
      cases List.foldl _ m ks with
      | none =>
        rintro ⟨h1, h2⟩
        refine ⟨h1, fun k' hk => ?_⟩
        rcases List.mem_cons.1 hk with rfl | hk
        · exact hno
        · exact h2 k' hk
      | some x =>
        rintro ⟨h1, h2, h3⟩
        refine ⟨h1.imp id (fun ⟨k', h, q⟩ => ⟨k', List.mem_cons_of_mem _ h, q⟩), h2, fun k' hk a b e => ?_⟩
        rcases List.mem_cons.1 hk with rfl | hk
        · exact absurd e (hno a b)
        · exact h3 k' hk a b e
    | some ab =>
      obtain ⟨a0, b0⟩ := ab
      dsimp only
      obtain ⟨g1, g2⟩ := splitOnceStr_some hs
      have g3 : ∀ a b, t = a ++ usual k ++ b → size a0 ≤ size a := by
        intro a b e
        have := g2 a b e
        rw [g1, List.append_assoc, List.append_assoc] at e
        rcases List.append_eq_append_iff.1 e with ⟨y, q1, q2⟩ | ⟨y, q1, q2⟩
        · rw [q1, size_app]; omega
        · have q3 := congrArg List.length q1
          simp at q3
          have : y = [] := by apply List.length_eq_zero_iff.1; omega
          rw [this, List.append_nil] at q1
          rw [q1]; exact Nat.le_refl _
      have := ih (some (least m (byteLen a0)))
      revert this
      cases List.foldl _ (some (least m (byteLen a0))) ks with
      | none => rintro ⟨h1, _⟩; exact absurd h1 (by simp)
      | some x =>
        rintro ⟨h1, h2, h3⟩
        have hx := h2 _ rfl
        have hl : least m (byteLen a0) ≤ size a0 := by
          cases m with
          | none => exact Nat.le_refl _
          | some y => exact Nat.min_le_right _ _
        refine ⟨?_, ?_, ?_⟩
        · rcases h1 with h1 | ⟨k', h, q⟩
          · injection h1 with h1
            cases m with
            | none => exact .inr ⟨k, List.mem_cons_self, a0, b0, g1, h1⟩
            | some y =>
              have h1 : min y (size a0) = x := h1
              rcases Nat.le_total y (size a0) with hy | hy
              · rw [Nat.min_eq_left hy] at h1
                exact .inl (by rw [h1])
              · rw [Nat.min_eq_right hy] at h1
                exact .inr ⟨k, List.mem_cons_self, a0, b0, g1, h1⟩
          · exact .inr ⟨k', List.mem_cons_of_mem _ h, q⟩
        · intro y hy
          subst hy
          exact Nat.le_trans hx (Nat.min_le_left _ _)
        · intro k' hk a b e
          rcases List.mem_cons.1 hk with rfl | hk
          · exact Nat.le_trans hx (Nat.le_trans hl (g3 a b e))
          · exact h3 k' hk a b e

/-- **C153 (the end).** The end found for a section after a place is the beginning of the line with the first header, of whatever
kind, at or after the place, or the end of the source if there is none; the program stops just when the place is within a
character or behind the end of the source, and it never reports a failure. -/
theorem C153_end (src : Str) (hint : Nat) :
    (sectionEnd src hint = .panic ↔ ¬ Cut src hint) ∧
    (∀ n, sectionEnd src hint = .ok n ↔ Cut src hint ∧
      ((∃ k e, Stands src k e n ∧ hint ≤ e ∧ ∀ k' e' n', Stands src k' e' n' → hint ≤ e' → e ≤ e') ∨
       (n = size src ∧ ∀ k' e' n', Stands src k' e' n' → e' < hint))) ∧
    sectionEnd src hint ≠ .err := by
  unfold sectionEnd
  cases hd : dropBytes src hint with
  | none =>
    have : ¬ Cut src hint := by
      intro h
      obtain ⟨q, hq⟩ := Verif.IncEdit.cut_drop.1 h
      rw [hd] at hq; exact absurd hq (by simp)
    exact ⟨⟨fun _ => this, fun _ => rfl⟩, fun n => ⟨fun h => absurd h (by simp), fun h => absurd h.1 this⟩, by simp⟩
  | some t =>
    obtain ⟨p, h1, h2⟩ := dropBytes_iff.1 hd
    rw [sz] at h2
    have hc : Cut src hint := ⟨p, t, h1, h2⟩
    have occ : ∀ k' e' n', Stands src k' e' n' → hint ≤ e' → ∃ a b, t = a ++ usual k' ++ b ∧ e' = hint + size a := by
      intro k' e' n' hst hb
      obtain ⟨p', r', g1, g2, _⟩ := stands_parts hst
      have e1 : p ++ t = p' ++ (usual k' ++ r') := by rw [← h1, g1]; simp
      obtain ⟨a, ha⟩ := size_le_of_length e1 (by omega)
      refine ⟨a, r', ?_, ?_⟩
      · rw [ha, List.append_assoc] at e1
        rw [List.append_cancel_left e1]; simp
      · rw [← g2, ha, size_app]; omega
    have hall : ∀ k : Kind, k ∈ [Kind.info, .styles, .events, .fonts, .graphics] := by intro k; cases k <;> decide
    have key := nearest_iff t [Kind.info, .styles, .events, .fonts, .graphics] none
    dsimp only
    have hN : nearest t [.info, .styles, .events, .fonts, .graphics] = List.foldl (fun m k => match splitOnceStr (headerOf k) t with
      | none => m
      | some (a, _) => some (least m (byteLen a))) none [Kind.info, .styles, .events, .fonts, .graphics] := rfl
    rw [← hN] at key
    cases hn : nearest t [.info, .styles, .events, .fonts, .graphics] with
    | none =>
      rw [hn] at key
      dsimp only at key ⊢
      have hlt : ∀ k' e' n', Stands src k' e' n' → e' < hint := by
        intro k' e' n' hst
        apply Nat.lt_of_not_le
        intro hle
        obtain ⟨a, b, h3, _⟩ := occ k' e' n' hst hle
        exact key.2 k' (hall k') a b h3
      refine ⟨⟨fun h => absurd h (by simp), fun h => absurd hc h⟩, fun n => ⟨?_, ?_⟩, by simp⟩
      · intro h
        injection h with h
        exact ⟨hc, .inr ⟨h.symm, hlt⟩⟩
      · rintro ⟨_, ⟨k, e, h3, h4, _⟩ | ⟨h3, _⟩⟩
        · exact absurd (hlt k e n h3) (by omega)
        · rw [h3]; rfl
    | some x =>
      rw [hn] at key
      dsimp only at key ⊢
      obtain ⟨h3, _, h4⟩ := key
      rcases h3 with h3 | ⟨k, _, a, b, h5, h6⟩
      · exact absurd h3 (by simp)
      have hsrc : src = (p ++ a) ++ usual k ++ b := by rw [h1, h5]; simp
      have hpos : hint + x = size (p ++ a) := by rw [size_app]; omega
      rw [hpos]
      have hmin : ∀ k' e' n', Stands src k' e' n' → hint ≤ e' → size (p ++ a) ≤ e' := by
        intro k' e' n' hst hle
        obtain ⟨a', b', h7, h8⟩ := occ k' e' n' hst hle
        have := h4 k' (hall k') a' b' h7
        rw [size_app]; omega
      obtain ⟨n0, hn0⟩ := stands_some hsrc
      have hl0 := (stands_iff hsrc n0).1 hn0
      refine ⟨⟨fun h => by rw [hl0] at h; exact absurd h (by simp), fun h => absurd hc h⟩, fun n => ⟨?_, ?_⟩, by rw [hl0]; simp⟩
      · intro h
        exact ⟨hc, .inl ⟨k, _, (stands_iff hsrc n).2 h, by omega, hmin⟩⟩
      · rintro ⟨_, ⟨k', e, h7, h8, h9⟩ | ⟨_, h7⟩⟩
        · have e1 := hmin k' e n h7 h8
          have e2 := h9 k _ n0 hn0 (by omega)
          have he : e = size (p ++ a) := by omega
          obtain ⟨_, _, _, _, h10⟩ := stands_parts h7
          rw [he] at h10
          exact h10
        · have := h7 k _ n0 hn0
          omega

/-! The sources of the examples. -/
/-- A small script. -/
def small : Str := "[Script Info]\nTitle: é\n\n[Events]\nFormat: Text".toList

set_option maxRecDepth 20000 in
example : headerStart small 42 .events = .ok 25 ∧ headerStart small 20 .events = .err ∧ headerStart small 22 .events = .panic ∧
    sectionEnd small 14 = .ok 25 ∧ sectionEnd small 30 = .ok 46 ∧ sectionEnd small 22 = .panic := by decide +kernel

set_option maxRecDepth 20000 in
/-- **C153 violated (text).** A header is taken for one wherever it stands in a line: with a title that names a section, the end
reported for the script information is the beginning of its own title line. -/
theorem C153_text_violated : sectionEnd "[Script Info]\nTitle: [Events] of May\n\n[Events]\n".toList 14 = .ok 14 := by
  decide +kernel

set_option maxRecDepth 20000 in
/-- **C153 violated (far).** The header of a section is not found from a place a hundred bytes behind it, though it is the only one
before the place. -/
theorem C153_far_violated : headerStart ("[Events]\n".toList ++ List.replicate 100 'x') 109 .events = .err ∧
    headerStart ("[Events]\n".toList ++ List.replicate 100 'x') 108 .events = .ok 0 := by decide +kernel

set_option maxRecDepth 20000 in
/-- **C153 violated (characters).** Searching from a place between two characters stops the program if the place a hundred bytes
and a header before it is within a character. -/
theorem C153_start_violated : Cut ("é[Events]\n".toList ++ List.replicate 98 'x') 109 ∧
    headerStart ("é[Events]\n".toList ++ List.replicate 98 'x') 109 .events = .panic := by
  refine ⟨⟨"é[Events]\n".toList ++ List.replicate 98 'x', [], by simp, by decide +kernel⟩, by decide +kernel⟩

set_option maxRecDepth 20000 in
/-- **C153 violated (old headers).** The header of the styles of older scripts, which the parser reads, is neither a beginning nor
an end. -/
theorem C153_old_violated : headerStart "[V4 Styles]\nFormat: Name\n".toList 20 .styles = .err ∧
    sectionEnd "[Script Info]\nTitle: A\n[V4 Styles]\nFormat: Name\n".toList 14 =
      .ok (size "[Script Info]\nTitle: A\n[V4 Styles]\nFormat: Name\n".toList) := by decide +kernel

end Verif.Props.Bounds
