import Verif.Spec.Stack
import Verif.Lemmas.Collision
import Verif.Lemmas.StrX
import Verif.Props.Collision
namespace Verif.Stack
open Verif
open Verif.Collision
open Verif.Spec.Coll (Apart OnScreen Overlap)
open Verif.Spec.Stack

/-! ## Order -/

theorem le_iff {a b : Ev} : le a b = true ↔ Before a b := by
  simp only [le, Before, Bool.or_eq_true, Bool.and_eq_true, decide_eq_true_eq]

theorem before_total (a b : Ev) : Before a b ∨ Before b a := by unfold Before; omega

theorem before_trans {a b c : Ev} (h1 : Before a b) (h2 : Before b c) : Before a c := by unfold Before at *; omega

theorem insertEv_perm (x : Ev) (l : List Ev) : (insertEv x l).Perm (x :: l) := by
  induction l with
  | nil => exact .refl _
  | cons a l ih =>
    simp only [insertEv]
    split
    · exact (ih.cons a).trans (.swap x a l)
    · exact .refl _

theorem mem_insertEv {x y : Ev} {l : List Ev} : y ∈ insertEv x l ↔ y = x ∨ y ∈ l := by
  rw [(insertEv_perm x l).mem_iff, List.mem_cons]

theorem insertEv_sorted {x : Ev} {l : List Ev} (h : l.Pairwise Before) : (insertEv x l).Pairwise Before := by
  induction l with
  | nil => simp [insertEv]
  | cons a l ih =>
    obtain ⟨h1, h2⟩ := List.pairwise_cons.1 h
    simp only [insertEv]
    split
    · next hc =>
      refine List.pairwise_cons.2 ⟨?_, ih h2⟩
      intro y hy
      rcases mem_insertEv.1 hy with rfl | hy
      · exact le_iff.1 hc
      · exact h1 y hy
    · next hc =>
      have hx : Before x a := by
        rcases before_total x a with h | h
        · exact h
        · exact absurd (le_iff.2 h) hc
      refine List.pairwise_cons.2 ⟨?_, h⟩
      intro y hy
      rcases List.mem_cons.1 hy with rfl | hy
      · exact hx
      · exact before_trans hx (h1 y hy)

/-- Inserting in a sorted list and then choosing is choosing and then inserting. -/
theorem filter_insertEv (f : Ev → Bool) {x : Ev} {l : List Ev} (h : l.Pairwise Before) :
    (insertEv x l).filter f = if f x then insertEv x (l.filter f) else l.filter f := by
  induction l with
  | nil => cases hx : f x <;> simp [insertEv, hx]
  | cons a l ih =>
    obtain ⟨h1, h2⟩ := List.pairwise_cons.1 h
    simp only [insertEv]
    by_cases hc : le a x = true
    · rw [if_pos hc]
      cases ha : f a with
      | true =>
        rw [List.filter_cons_of_pos ha, List.filter_cons_of_pos ha, ih h2]
        split
        · simp only [insertEv]; rw [if_pos hc]
        · rfl
      | false =>
        rw [List.filter_cons_of_neg (by simp [ha]), List.filter_cons_of_neg (by simp [ha]), ih h2]
    · rw [if_neg hc]
      have hfront : ∀ m : List Ev, (∀ y ∈ m, y ∈ a :: l) → insertEv x m = x :: m := by
        intro m hm
        cases m with
        | nil => rfl
        | cons y m =>
          have : le y x ≠ true := by
            intro hy
            rcases List.mem_cons.1 (hm y (by simp)) with rfl | hy2
            · exact hc hy
            · exact hc (le_iff.2 (before_trans (h1 y hy2) (le_iff.1 hy)))
          simp only [insertEv]; rw [if_neg this]
      split
      · next hx =>
        rw [List.filter_cons_of_pos hx, hfront]
        intro y hy
        exact (List.mem_filter.1 hy).1
      · next hx => rw [List.filter_cons_of_neg hx]

theorem sorted_aux (l : List Ev) : ∀ acc : List Ev, acc.Pairwise Before →
    (l.foldl (fun acc x => insertEv x acc) acc).Perm (acc ++ l) ∧
    (l.foldl (fun acc x => insertEv x acc) acc).Pairwise Before ∧
    ∀ f : Ev → Bool, (l.foldl (fun acc x => insertEv x acc) acc).filter f =
      (l.filter f).foldl (fun acc x => insertEv x acc) (acc.filter f) := by
  induction l with
  | nil => intro acc h; simp [h]
  | cons x l ih =>
    intro acc h
    obtain ⟨h1, h2, h3⟩ := ih (insertEv x acc) (insertEv_sorted h)
    refine ⟨?_, h2, ?_⟩
    · refine h1.trans (((insertEv_perm x acc).append_right l).trans ?_)
      exact (List.perm_middle (l₁ := acc) (a := x) (l₂ := l)).symm
    · intro f
      rw [List.foldl_cons, h3 f, filter_insertEv f h]
      by_cases hx : f x = true
      · rw [if_pos hx, List.filter_cons_of_pos hx, List.foldl_cons]
      · rw [if_neg hx, List.filter_cons_of_neg hx]

theorem sorted_filter (f : Ev → Bool) (l : List Ev) : (sorted l).filter f = sorted (l.filter f) := by
  have := (sorted_aux l [] List.Pairwise.nil).2.2 f
  simpa [sorted] using this

/-- Events that stand level stay in their order. -/
theorem sorted_level {l : List Ev} (h : ∀ a ∈ l, ∀ b ∈ l, Before a b) : sorted l = l := by
  have ins : ∀ (acc : List Ev) (x : Ev), (∀ a ∈ acc, Before a x) → insertEv x acc = acc ++ [x] := by
    intro acc
    induction acc with
    | nil => intro x _; rfl
    | cons a acc ih =>
      intro x hx
      simp only [insertEv]
      rw [if_pos (le_iff.2 (hx a (by simp))), ih x (fun b hb => hx b (by simp [hb]))]
      rfl
  have aux : ∀ (l acc : List Ev), (∀ a ∈ acc ++ l, ∀ b ∈ acc ++ l, Before a b) →
      l.foldl (fun acc x => insertEv x acc) acc = acc ++ l := by
    intro l
    induction l with
    | nil => intro acc _; simp
    | cons x l ih =>
      intro acc h
      rw [List.foldl_cons, ins acc x (fun a ha => h a (by simp [ha]) x (by simp)), ih]
      · simp
      · intro a ha b hb
        exact h a (by simpa using ha) b (by simpa using hb)
  simpa [sorted] using aux l [] (by simpa using h)

theorem drawn_sorted (l : List Ev) : Drawn l (sorted l) := by
  obtain ⟨h1, h2, _⟩ := sorted_aux l [] List.Pairwise.nil
  refine ⟨by simpa [sorted] using h1, by simpa [sorted] using h2, ?_⟩
  intro e
  rw [sorted_filter, sorted_level]
  intro a ha b hb
  have h3 := of_decide_eq_true (List.mem_filter.1 ha).2
  have h4 := of_decide_eq_true (List.mem_filter.1 hb).2
  unfold Before; unfold Level at h3 h4; omega

/-! ## Boxes -/

theorem pinned_iff {e : Ev} : pinned e = true ↔ Pinned e := by
  simp only [pinned, Bool.or_eq_true, containsStr_iff, Pinned]
  constructor
  · rintro (⟨a, b, h⟩ | ⟨a, b, h⟩)
    · exact ⟨a, b, .inl h⟩
    · exact ⟨a, b, .inr h⟩
  · rintro ⟨a, b, h | h⟩
    · exact .inl ⟨a, b, h⟩
    · exact .inr ⟨a, b, h⟩

/-- What `extend` computes, with the edges in place of the size. -/
structure Edges (p : Pipe) (ls : List Layer) (x0 y0 x1 y1 : Rat) : Prop where
  inside : ∀ t, Layer.text t ∈ ls → x0 ≤ (room p t).x ∧ y0 ≤ (room p t).y ∧
    (room p t).x + (room p t).w ≤ x1 ∧ (room p t).y + (room p t).h ≤ y1
  left : ∃ t, Layer.text t ∈ ls ∧ (room p t).x = x0
  top : ∃ t, Layer.text t ∈ ls ∧ (room p t).y = y0
  right : ∃ t, Layer.text t ∈ ls ∧ (room p t).x + (room p t).w = x1
  bottom : ∃ t, Layer.text t ∈ ls ∧ (room p t).y + (room p t).h = y1

theorem extend_other {dpi : Rat} {acc : Option (Rat × Rat × Rat × Rat)} {l : Layer} (h : ∀ t, l ≠ .text t) :
    extend dpi acc l = acc := by
  cases l with
  | text t => exact absurd rfl (h t)
  | raster y r => rfl
  | vector r => rfl

theorem extend_none {p : Pipe} {t : Text} : extend p.dpi none (.text t) =
    some ((room p t).x, (room p t).y, (room p t).x + (room p t).w, (room p t).y + (room p t).h) := by
  have : (t.text.length : Rat) * t.size * (1 / 2) = (t.text.length : Rat) * t.size / 2 := by grind
  simp only [extend, room, this]

theorem extend_some {p : Pipe} {t : Text} {x0 y0 x1 y1 : Rat} : extend p.dpi (some (x0, y0, x1, y1)) (.text t) =
    some (min x0 (room p t).x, min y0 (room p t).y, max x1 ((room p t).x + (room p t).w),
      max y1 ((room p t).y + (room p t).h)) := by
  have : (t.text.length : Rat) * t.size * (1 / 2) = (t.text.length : Rat) * t.size / 2 := by grind
  simp only [extend, room, this]

theorem pick_min {P : Text → Prop} {f : Text → Rat} {a b : Rat} {t : Text} (h : ∃ t, P t ∧ f t = a) (ht : P t) (hf : f t = b) :
    ∃ t, P t ∧ f t = min a b := by
  obtain ⟨s, h1, h2⟩ := h
  by_cases hab : a ≤ b
  · exact ⟨s, h1, by grind⟩
  · exact ⟨t, ht, by grind⟩

theorem pick_max {P : Text → Prop} {f : Text → Rat} {a b : Rat} {t : Text} (h : ∃ t, P t ∧ f t = a) (ht : P t) (hf : f t = b) :
    ∃ t, P t ∧ f t = max a b := by
  obtain ⟨s, h1, h2⟩ := h
  by_cases hab : a ≤ b
  · exact ⟨t, ht, by grind⟩
  · exact ⟨s, h1, by grind⟩

theorem edges_snoc {p : Pipe} {ls : List Layer} {t : Text} {x0 y0 x1 y1 : Rat} (h : Edges p ls x0 y0 x1 y1) :
    Edges p (ls ++ [.text t]) (min x0 (room p t).x) (min y0 (room p t).y) (max x1 ((room p t).x + (room p t).w))
      (max y1 ((room p t).y + (room p t).h)) := by
  have up : ∀ s, Layer.text s ∈ ls → Layer.text s ∈ ls ++ [.text t] := fun s hs => List.mem_append_left _ hs
  have last : Layer.text t ∈ ls ++ [.text t] := by simp
  have lift : ∀ {f : Text → Rat} {a : Rat}, (∃ s, Layer.text s ∈ ls ∧ f s = a) → ∃ s, Layer.text s ∈ ls ++ [.text t] ∧ f s = a :=
    fun ⟨s, h1, h2⟩ => ⟨s, up s h1, h2⟩
  refine ⟨?_, pick_min (P := fun s => Layer.text s ∈ ls ++ [.text t]) (f := fun s => (room p s).x) (lift h.left) last rfl,
    pick_min (P := fun s => Layer.text s ∈ ls ++ [.text t]) (f := fun s => (room p s).y) (lift h.top) last rfl,
    pick_max (P := fun s => Layer.text s ∈ ls ++ [.text t]) (f := fun s => (room p s).x + (room p s).w) (lift h.right) last rfl,
    pick_max (P := fun s => Layer.text s ∈ ls ++ [.text t]) (f := fun s => (room p s).y + (room p s).h) (lift h.bottom) last rfl⟩
  intro s hs
  rcases List.mem_append.1 hs with hs | hs
  · obtain ⟨h1, h2, h3, h4⟩ := h.inside s hs
    refine ⟨by grind, by grind, by grind, by grind⟩
  · have : s = t := by simpa using hs
    subst this
    refine ⟨by grind, by grind, by grind, by grind⟩

theorem edges_other {p : Pipe} {ls : List Layer} {l : Layer} {x0 y0 x1 y1 : Rat} (hl : ∀ t, l ≠ .text t)
    (h : Edges p ls x0 y0 x1 y1) : Edges p (ls ++ [l]) x0 y0 x1 y1 := by
  have lift : ∀ {f : Text → Rat} {a : Rat}, (∃ s, Layer.text s ∈ ls ∧ f s = a) → ∃ s, Layer.text s ∈ ls ++ [l] ∧ f s = a :=
    fun ⟨s, h1, h2⟩ => ⟨s, List.mem_append_left _ h1, h2⟩
  refine ⟨?_, lift h.left, lift h.top, lift h.right, lift h.bottom⟩
  intro s hs
  rcases List.mem_append.1 hs with hs | hs
  · exact h.inside s hs
  · exact absurd (by simpa using hs : Layer.text s = l).symm (hl s)

theorem fold_edges (p : Pipe) : ∀ (ls done : List Layer) (acc : Option (Rat × Rat × Rat × Rat)),
    (match acc with
      | none => ∀ t, Layer.text t ∉ done
      | some (x0, y0, x1, y1) => Edges p done x0 y0 x1 y1) →
    match ls.foldl (extend p.dpi) acc with
      | none => ∀ t, Layer.text t ∉ done ++ ls
      | some (x0, y0, x1, y1) => Edges p (done ++ ls) x0 y0 x1 y1 := by
  intro ls
  induction ls with
  | nil => intro done acc h; simpa using h
  | cons l ls ih =>
    intro done acc h
    rw [List.foldl_cons, show done ++ l :: ls = (done ++ [l]) ++ ls by simp]
    apply ih
    by_cases hl : ∃ t, l = .text t
    · obtain ⟨t, rfl⟩ := hl
      cases acc with
      | none =>
        rw [extend_none]
        refine ⟨?_, ⟨t, by simp, rfl⟩, ⟨t, by simp, rfl⟩, ⟨t, by simp, rfl⟩, ⟨t, by simp, rfl⟩⟩
        intro s hs
        rcases List.mem_append.1 hs with hs | hs
        · exact absurd hs (h s)
        · have : s = t := by simpa using hs
          subst this
          refine ⟨by grind, by grind, by grind, by grind⟩
      | some q =>
        obtain ⟨x0, y0, x1, y1⟩ := q
        rw [extend_some]
        exact edges_snoc h
    · have hl : ∀ t, l ≠ .text t := fun t e => hl ⟨t, e⟩
      rw [extend_other hl]
      cases acc with
      | none =>
        intro t ht
        rcases List.mem_append.1 ht with ht | ht
        · exact h t ht
        · exact hl t (by simpa using ht : Layer.text t = l).symm
      | some q =>
        obtain ⟨x0, y0, x1, y1⟩ := q
        exact edges_other hl h

theorem box_some {p : Pipe} {ls : List Layer} {b : Box} (h : box p.dpi ls = some b) : Around p ls b := by
  have := fold_edges p ls [] none (by simp)
  unfold box at h
  cases hf : ls.foldl (extend p.dpi) none with
  | none => rw [hf] at h; simp at h
  | some q =>
    obtain ⟨x0, y0, x1, y1⟩ := q
    rw [hf] at h this
    simp only [Option.map_some, Option.some.injEq] at h
    subst h
    simp only [List.nil_append] at this
    have ex : x0 + (x1 - x0) = x1 := by grind
    have ey : y0 + (y1 - y0) = y1 := by grind
    refine ⟨?_, this.left, this.top, ?_, ?_⟩
    · simp only [ex, ey]; exact this.inside
    · simp only [ex]; exact this.right
    · simp only [ey]; exact this.bottom

theorem box_none {p : Pipe} {ls : List Layer} (h : box p.dpi ls = none) (t : Text) : Layer.text t ∉ ls := by
  have := fold_edges p ls [] none (by simp)
  unfold box at h
  cases hf : ls.foldl (extend p.dpi) none with
  | none => rw [hf] at this; simpa using this t
  | some q => rw [hf] at h; simp at h

theorem around_unique {p : Pipe} {ls : List Layer} {a b : Box} (h1 : Around p ls a) (h2 : Around p ls b) : a = b := by
  obtain ⟨t1, m1, e1⟩ := h1.left
  obtain ⟨t2, m2, e2⟩ := h1.top
  obtain ⟨t3, m3, e3⟩ := h1.right
  obtain ⟨t4, m4, e4⟩ := h1.bottom
  obtain ⟨s1, n1, f1⟩ := h2.left
  obtain ⟨s2, n2, f2⟩ := h2.top
  obtain ⟨s3, n3, f3⟩ := h2.right
  obtain ⟨s4, n4, f4⟩ := h2.bottom
  have a1 := (h2.inside t1 m1).1
  have a2 := (h2.inside t2 m2).2.1
  have a3 := (h2.inside t3 m3).2.2.1
  have a4 := (h2.inside t4 m4).2.2.2
  have b1 := (h1.inside s1 n1).1
  have b2 := (h1.inside s2 n2).2.1
  have b3 := (h1.inside s3 n3).2.2.1
  have b4 := (h1.inside s4 n4).2.2.2
  obtain ⟨ax, ay, aw, ah⟩ := a
  obtain ⟨bx, by_, bw, bh⟩ := b
  simp only at *
  have hx : ax = bx := by grind
  have hy : ay = by_ := by grind
  have hw : aw = bw := by grind
  have hh : ah = bh := by grind
  rw [hx, hy, hw, hh]

theorem around_text {p : Pipe} {ls : List Layer} {t : Text} (h : Layer.text t ∈ ls) : ∃ b, box p.dpi ls = some b := by
  cases hb : box p.dpi ls with
  | some b => exact ⟨b, rfl⟩
  | none => exact absurd h (box_none hb t)

theorem room_shift (p : Pipe) (t : Text) (dy : Rat) : room p { t with y := t.y + dy } =
    { room p t with y := (room p t).y + dy } := rfl

theorem mem_shift {dy : Rat} {ls : List Layer} {t : Text} :
    Layer.text t ∈ ls.map (shift dy) ↔ ∃ s, Layer.text s ∈ ls ∧ t = { s with y := s.y + dy } := by
  rw [List.mem_map]
  constructor
  · rintro ⟨l, hl, e⟩
    cases l with
    | text s => exact ⟨s, hl, (Layer.text.inj e).symm⟩
    | raster y r => cases e
    | vector r => cases e
  · rintro ⟨s, hs, rfl⟩
    exact ⟨_, hs, rfl⟩

theorem around_shift {p : Pipe} {ls : List Layer} {b : Box} (dy : Rat) (h : Around p ls b) :
    Around p (ls.map (shift dy)) { b with y := b.y + dy } := by
  refine ⟨?_, ?_, ?_, ?_, ?_⟩
  · intro t ht
    obtain ⟨s, hs, rfl⟩ := mem_shift.1 ht
    have := h.inside s hs
    rw [room_shift]
    simp only
    grind
  · obtain ⟨s, hs, e⟩ := h.left
    exact ⟨_, mem_shift.2 ⟨s, hs, rfl⟩, by rw [room_shift]; exact e⟩
  · obtain ⟨s, hs, e⟩ := h.top
    exact ⟨_, mem_shift.2 ⟨s, hs, rfl⟩, by rw [room_shift]; simp only; rw [e]⟩
  · obtain ⟨s, hs, e⟩ := h.right
    exact ⟨_, mem_shift.2 ⟨s, hs, rfl⟩, by rw [room_shift]; exact e⟩
  · obtain ⟨s, hs, e⟩ := h.bottom
    refine ⟨_, mem_shift.2 ⟨s, hs, rfl⟩, ?_⟩
    rw [room_shift]; simp only; grind

theorem digit_range {c : Char} : ('1' ≤ c ∧ c ≤ '9') ↔ 49 ≤ c.toNat ∧ c.toNat ≤ 57 := by
  constructor
  · rintro ⟨h1, h2⟩
    exact ⟨UInt32.le_iff_toNat_le.1 h1, UInt32.le_iff_toNat_le.1 h2⟩
  · rintro ⟨h1, h2⟩
    exact ⟨UInt32.le_iff_toNat_le.2 h1, UInt32.le_iff_toNat_le.2 h2⟩

theorem row_written {p : Pipe} {e : Ev} {f : Nat} (h : Written e f) : row p e = f := by
  obtain ⟨a, b, c, he, hfirst, hc, h1, h2⟩ := h
  have : splitOnceStr "\\an".toList e.text = some (a, c :: b) := by
    rw [he]; apply splitOnceStr_first
    intro a' b' h; exact hfirst a' b' (he.trans h)
  simp only [row]
  rw [this]
  simp only
  rw [if_pos (digit_range.2 (by omega))]
  omega

theorem row_style {p : Pipe} {e : Ev} (h : ∀ f, ¬ Written e f) : row p e = styleRow p e := by
  simp only [row]
  split
  · next a c b hs =>
    split
    · next hc =>
      obtain ⟨h1, h2⟩ := splitOnceStr_some hs
      have := digit_range.1 hc
      exact absurd ⟨a, b, c, h1, h2, by omega, by omega, by omega⟩ (h (c.toNat - 48))
    · rfl
  · rfl

theorem styleRow_iff {p : Pipe} {e : Ev} {f : Nat} (h : Styled p e f ∨ (∀ g, ¬ Styled p e g) ∧ f = 2) : styleRow p e = f := by
  unfold styleRow
  rcases h with ⟨s, h1, h2, h3⟩ | ⟨h, rfl⟩
  · rw [h1, Option.bind_some, h2]
    exact if_pos h3
  · cases hs : p.styles.get e.style with
    | none => rfl
    | some s =>
      rw [Option.bind_some]
      cases hu : Segment.parseU8 s with
      | none => rfl
      | some a =>
        by_cases hc : 1 ≤ a ∧ a ≤ 9
        · exact absurd ⟨s, hs, hu, hc⟩ (h a)
        · exact if_neg hc

theorem row_iff {p : Pipe} {e : Ev} {f : Nat} (h : Row p e f) : row p e = f := by
  rcases h with h | ⟨h1, h2⟩
  · exact row_written h
  · rw [row_style h1, styleRow_iff h2]

/-- Two boxes that differ by at most half a pixel in height. -/
def Near (a b : Box) : Prop := a.x = b.x ∧ a.w = b.w ∧ a.h = b.h ∧ a.y - b.y ≤ 1 / 2 ∧ b.y - a.y ≤ 1 / 2

theorem apart_near {d : Rat} {a a' b : Box} (h : Apart d a b) (hn : Near a' a) : Apart (d - 1 / 2) a' b := by
  unfold Apart Near at *
  grind

theorem apart_near' {d : Rat} {a b b' : Box} (h : Apart d a b) (hn : Near b' b) : Apart (d - 1 / 2) a b' := by
  unfold Apart Near at *
  grind

/-! ## The loop -/

/-- What one step does. -/
theorem step_ok {p : Pipe} {draw : Ev → Outcome (List Layer)} {r r' : Resolver} {e : Ev} {ls : List Layer}
    (h : step p draw r e = .ok (ls, r')) :
    ∃ ls0, draw e = .ok ls0 ∧
      ((ls = ls0 ∧ r' = r ∧ (Pinned e ∨ ∀ b, ¬ Around p ls0 b)) ∨
       (¬ Pinned e ∧ ∃ b, box p.dpi ls0 = some b ∧ r' = (r.findPosition ⟨b, e.layer, row p e, 0⟩).2 ∧
        ∃ dy, dy = (r.findPosition ⟨b, e.layer, row p e, 0⟩).1.y - b.y ∧
        ((dy ≤ 1 / 2 ∧ -(1 / 2) ≤ dy ∧ ls = ls0) ∨ ((1 / 2 < dy ∨ dy < -(1 / 2)) ∧ ls = ls0.map (shift dy))))) := by
  unfold step at h
  cases hd : draw e with
  | err => rw [hd] at h; cases h
  | panic => rw [hd] at h; cases h
  | ok ls0 =>
    rw [hd] at h
    simp only at h
    refine ⟨ls0, rfl, ?_⟩
    by_cases hp : pinned e = true
    · rw [if_pos hp] at h
      injection h with h
      injection h with h1 h2
      exact .inl ⟨h1.symm, h2.symm, .inl (pinned_iff.1 hp)⟩
    · rw [if_neg hp] at h
      cases hb : box p.dpi ls0 with
      | none =>
        rw [hb] at h
        injection h with h
        injection h with h1 h2
        refine .inl ⟨h1.symm, h2.symm, .inr ?_⟩
        intro b hb2
        obtain ⟨t, ht, _⟩ := hb2.left
        exact box_none hb t ht
      | some b =>
        rw [hb] at h
        simp only at h
        injection h with h
        injection h with h1 h2
        refine .inr ⟨fun hh => hp (pinned_iff.2 hh), b, rfl, h2.symm, _, rfl, ?_⟩
        by_cases hc : (r.findPosition ⟨b, e.layer, row p e, 0⟩).1.y - b.y > 1 / 2 ∨
            (r.findPosition ⟨b, e.layer, row p e, 0⟩).1.y - b.y < -(1 / 2)
        · rw [if_pos hc] at h1
          exact .inr ⟨by grind, h1.symm⟩
        · rw [if_neg hc] at h1
          exact .inl ⟨by grind, by grind, h1.symm⟩

/-- The boxes chosen for a step: the placed one, and the one its layers end up in. -/
theorem step_box {p : Pipe} {draw : Ev → Outcome (List Layer)} {r r' : Resolver} {e : Ev} {ls : List Layer} {B : Box}
    (h : step p draw r e = .ok (ls, r')) (hp : ¬ Pinned e) (hB : Around p ls B) :
    ∃ b : Box, r' = (r.findPosition ⟨b, e.layer, row p e, 0⟩).2 ∧ Near B (r.findPosition ⟨b, e.layer, row p e, 0⟩).1 := by
  obtain ⟨ls0, _, hc⟩ := step_ok h
  rcases hc with ⟨rfl, _, hc⟩ | ⟨_, b, hb, hr, dy, hdy, hc⟩
  · rcases hc with hc | hc
    · exact absurd hc hp
    · exact absurd hB (hc B)
  · refine ⟨b, hr, ?_⟩
    obtain ⟨s1, s2, s3⟩ := search_shape r.placed r.margin e.layer (pushDown (row p e)) (r.placed.length + 1) b
    have ex : (r.findPosition ⟨b, e.layer, row p e, 0⟩).1.x = b.x := s1
    have ew : (r.findPosition ⟨b, e.layer, row p e, 0⟩).1.w = b.w := s2
    have eh : (r.findPosition ⟨b, e.layer, row p e, 0⟩).1.h = b.h := s3
    have ha := box_some hb
    rcases hc with ⟨c1, c2, rfl⟩ | ⟨_, rfl⟩
    · have := around_unique hB ha
      subst this
      refine ⟨ex.symm, ew.symm, eh.symm, by grind, by grind⟩
    · have := around_unique hB (around_shift dy ha)
      subst this
      refine ⟨ex.symm, ew.symm, eh.symm, ?_, ?_⟩
      · simp only; grind
      · simp only; grind

theorem findPosition_keeps (r : Resolver) (e : Collision.Ev) : (r.findPosition e).2.screenH = r.screenH ∧
    (r.findPosition e).2.margin = r.margin ∧
    (r.findPosition e).2.placed = r.placed ++ [{ e with bbox := (r.findPosition e).1 }] := ⟨rfl, rfl, rfl⟩

theorem step_keeps {p : Pipe} {draw : Ev → Outcome (List Layer)} {r r' : Resolver} {e : Ev} {ls : List Layer}
    (h : step p draw r e = .ok (ls, r')) : r'.screenH = r.screenH ∧ r'.margin = r.margin ∧ ∀ c ∈ r.placed, c ∈ r'.placed := by
  obtain ⟨ls0, _, hc⟩ := step_ok h
  rcases hc with ⟨_, rfl, _⟩ | ⟨_, b, _, rfl, _⟩
  · exact ⟨rfl, rfl, fun c hc => hc⟩
  · obtain ⟨h1, h2, h3⟩ := findPosition_keeps r ⟨b, e.layer, row p e, 0⟩
    exact ⟨h1, h2, fun c hc => by rw [h3]; exact List.mem_append_left _ hc⟩

/-- The loop, with the layers of every event kept apart. -/
inductive Run (p : Pipe) (draw : Ev → Outcome (List Layer)) : Resolver → List (Ev × List Layer) → Prop where
  | nil (r : Resolver) : Run p draw r []
  | cons {r r' : Resolver} {e : Ev} {ls : List Layer} {rest : List (Ev × List Layer)} (h : step p draw r e = .ok (ls, r'))
      (hr : Run p draw r' rest) : Run p draw r ((e, ls) :: rest)

theorem loop_run {p : Pipe} {draw : Ev → Outcome (List Layer)} : ∀ {l : List Ev} {r : Resolver} {out : List Layer},
    loop p draw r l = .ok out → ∃ parts, parts.map (·.1) = l ∧ out = parts.flatMap (·.2) ∧ Run p draw r parts := by
  intro l
  induction l with
  | nil =>
    intro r out h
    simp only [loop] at h
    injection h with h
    exact ⟨[], rfl, h.symm, .nil r⟩
  | cons e l ih =>
    intro r out h
    simp only [loop] at h
    cases hs : step p draw r e with
    | err => rw [hs] at h; cases h
    | panic => rw [hs] at h; cases h
    | ok q =>
      obtain ⟨ls, r'⟩ := q
      rw [hs] at h
      simp only at h
      cases hl : loop p draw r' l with
      | err => rw [hl] at h; cases h
      | panic => rw [hl] at h; cases h
      | ok rest =>
        rw [hl] at h
        injection h with h
        obtain ⟨parts, h1, h2, h3⟩ := ih hl
        refine ⟨(e, ls) :: parts, by simp [h1], ?_, .cons hs h3⟩
        rw [List.flatMap_cons, ← h2]; exact h.symm

/-- An event lands apart from everything placed before. -/
theorem run_clear {p : Pipe} {draw : Ev → Outcome (List Layer)} {r : Resolver} {parts : List (Ev × List Layer)}
    (h : Run p draw r parts) : r.screenH = p.screenH → r.margin = 2 → ∀ c ∈ r.placed, ∀ e ls B, (e, ls) ∈ parts →
    c.layer = e.layer → ¬ Pinned e → Around p ls B → 1 / 2 < B.y → B.y + B.h < p.screenH - 1 / 2 →
    Apart (7 / 2) B c.bbox := by
  induction h with
  | nil r => intro _ _ c _ e ls B hm; simp at hm
  | @cons r r' e0 ls0 rest hs hr ih =>
    intro hH hm c hc e ls B hmem hl hp hB hy1 hy2
    obtain ⟨k1, k2, k3⟩ := step_keeps hs
    rcases List.mem_cons.1 hmem with heq | hmem
    · injection heq with h1 h2
      subst h1 h2
      obtain ⟨b, hb, hn⟩ := step_box hs hp hB
      have := Props.C24_separated_partial r ⟨b, e.layer, row p e, 0⟩ (by unfold Near at hn; grind)
        (by unfold Near at hn; grind) c hc hl
      rw [hm] at this
      have := apart_near this hn
      rw [show (2 * 2 - 1 / 2 : Rat) = 7 / 2 by decide +kernel] at this
      exact this
    · exact ih (k1.trans hH) (k2.trans hm) c (k3 c hc) e ls B hmem hl hp hB hy1 hy2

theorem run_apart {p : Pipe} {draw : Ev → Outcome (List Layer)} {r : Resolver} {parts : List (Ev × List Layer)}
    (h : Run p draw r parts) : r.screenH = p.screenH → r.margin = 2 →
    parts.Pairwise fun a b => a.1.layer = b.1.layer → ¬ Pinned a.1 → ¬ Pinned b.1 →
      ∀ A B, Around p a.2 A → Around p b.2 B → 1 / 2 < B.y → B.y + B.h < p.screenH - 1 / 2 → Apart 3 B A := by
  induction h with
  | nil r => intro _ _; exact List.Pairwise.nil
  | @cons r r' e0 ls0 rest hs hr ih =>
    intro hH hm
    obtain ⟨k1, k2, _⟩ := step_keeps hs
    refine List.pairwise_cons.2 ⟨?_, ih (k1.trans hH) (k2.trans hm)⟩
    rintro ⟨e, ls⟩ hmem hl hp1 hp2 A B hA hB hy1 hy2
    simp only at hl hp1 hp2 hA hB
    obtain ⟨b, hb, hn⟩ := step_box hs hp1 hA
    obtain ⟨_, _, h3⟩ := findPosition_keeps r ⟨b, e0.layer, row p e0, 0⟩
    have := run_clear hr (k1.trans hH) (k2.trans hm) _ (by rw [hb, h3]; exact List.mem_append_right _ (List.mem_singleton.2 rfl))
      e ls B hmem hl hp2 hB hy1 hy2
    have := apart_near' this hn
    rw [show (7 / 2 - 1 / 2 : Rat) = 3 by decide +kernel] at this
    exact this

theorem run_still {p : Pipe} {draw : Ev → Outcome (List Layer)} {r : Resolver} {parts : List (Ev × List Layer)}
    (h : Run p draw r parts) : r.screenH = p.screenH → r.margin = 2 →
    ∀ (before after : List (Ev × List Layer)) (e : Ev) (ls ls0 : List Layer) (b : Box),
    parts = before ++ (e, ls) :: after → draw e = .ok ls0 → Around p ls0 b → OnScreen p.screenH b →
    (∀ c ∈ r.placed, c.layer = e.layer → Apart 4 b c.bbox) →
    (∀ e' ls' b', (e', ls') ∈ before → e'.layer = e.layer → ¬ Pinned e' → Around p ls' b' → Apart (9 / 2) b b') → ls = ls0 := by
  induction h with
  | nil r => intro _ _ before after e ls ls0 b he; simp at he
  | @cons r r' e1 ls1 rest hs hr ih =>
    intro hH hm before after e ls ls0 b heq hd hb hon hfree hbef
    obtain ⟨k1, k2, _⟩ := step_keeps hs
    cases before with
    | nil =>
      simp only [List.nil_append] at heq
      injection heq with h1 h2
      injection h1 with h1 h3
      subst h1 h3
      obtain ⟨ls0', hd', hc⟩ := step_ok hs
      rw [hd] at hd'
      injection hd' with hd'
      subst hd'
      rcases hc with ⟨h, _⟩ | ⟨_, b', hb', _, dy, hdy, hc⟩
      · exact h
      · have := around_unique hb (box_some hb')
        subst this
        have hz := Props.C24_no_needless_move r ⟨b, e1.layer, row p e1, 0⟩
          (by rw [hm, show (2 * 2 : Rat) = 4 by decide +kernel]; exact hfree) (by rw [hH]; exact hon)
        rw [hz] at hdy
        rcases hc with ⟨_, _, h⟩ | ⟨hc, _⟩
        · exact h
        · simp only at hdy; grind
    | cons q before =>
      simp only [List.cons_append] at heq
      injection heq with h1 h2
      subst h1
      apply ih (k1.trans hH) (k2.trans hm) before after e ls ls0 b h2 hd hb hon
      · intro c hc hl
        obtain ⟨lsd, _, hcase⟩ := step_ok hs
        rcases hcase with ⟨_, hr, _⟩ | ⟨hp, b1, hb1, hr, dy, hdy, hcase⟩
        · rw [hr] at hc; exact hfree c hc hl
        · obtain ⟨_, _, h3⟩ := findPosition_keeps r ⟨b1, e1.layer, row p e1, 0⟩
          rw [hr, h3] at hc
          rcases List.mem_append.1 hc with hc | hc
          · exact hfree c hc hl
          · have hc := List.mem_singleton.1 hc
            have hA : ∃ A, Around p ls1 A := by
              rcases hcase with ⟨_, _, rfl⟩ | ⟨_, rfl⟩
              · exact ⟨_, box_some hb1⟩
              · exact ⟨_, around_shift dy (box_some hb1)⟩
            obtain ⟨A, hA⟩ := hA
            obtain ⟨b2, hb2, hn⟩ := step_box hs hp hA
            have hlast : (r.findPosition ⟨b2, e1.layer, row p e1, 0⟩).1 = c.bbox := by
              have e2 : (r.findPosition ⟨b2, e1.layer, row p e1, 0⟩).2.placed =
                  (r.findPosition ⟨b1, e1.layer, row p e1, 0⟩).2.placed := by rw [← hb2, hr]
              obtain ⟨_, _, h4⟩ := findPosition_keeps r ⟨b2, e1.layer, row p e1, 0⟩
              rw [h3, h4] at e2
              have e3 := List.append_cancel_left e2
              rw [hc]
              have e4 := (List.cons.inj e3).1
              exact congrArg Collision.Ev.bbox e4
            have hl1 : e1.layer = e.layer := by rw [hc] at hl; exact hl
            have := hbef e1 ls1 A (by simp) hl1 hp hA
            have hn' : Near c.bbox A := by rw [← hlast]; unfold Near at hn ⊢; grind
            have := apart_near' this hn'
            rw [show (9 / 2 - 1 / 2 : Rat) = 4 by decide +kernel] at this
            exact this
      · intro e' ls' b' hmem hl hp hb'
        exact hbef e' ls' b' (by simp [hmem]) hl hp hb'

theorem moved_shift (dy : Rat) (l : Layer) : Moved dy l (shift dy l) := by
  cases l with
  | text t => exact ⟨rfl, rfl, rfl, rfl, rfl⟩
  | raster y r => rfl
  | vector r => rfl

theorem allMoved_shift (dy : Rat) (ls : List Layer) : AllMoved dy ls (ls.map (shift dy)) := by
  refine ⟨by simp, ?_⟩
  intro i a b ha hb
  rw [List.getElem?_map, ha] at hb
  simp only [Option.map_some, Option.some.injEq] at hb
  rw [← hb]
  exact moved_shift dy a

theorem run_moved {p : Pipe} {draw : Ev → Outcome (List Layer)} {r : Resolver} {parts : List (Ev × List Layer)}
    (h : Run p draw r parts) : r.screenH = p.screenH → ∀ e ls, (e, ls) ∈ parts → ∃ ls0, draw e = .ok ls0 ∧
    (ls = ls0 ∨ ¬ Pinned e ∧ ∃ dy, AllMoved dy ls0 ls ∧ (1 / 2 < dy ∨ dy < -(1 / 2)) ∧ ∀ b f, Around p ls0 b → OnScreen p.screenH b →
      Row p e f → if 1 ≤ f ∧ f ≤ 3 then dy < 0 else 0 < dy) := by
  induction h with
  | nil r => intro _ e ls hm; simp at hm
  | @cons r r' e0 ls1 rest hs hr ih =>
    intro hH e ls hmem
    obtain ⟨k1, _, _⟩ := step_keeps hs
    rcases List.mem_cons.1 hmem with heq | hmem
    · injection heq with h1 h2
      subst h1 h2
      obtain ⟨ls0, hd, hc⟩ := step_ok hs
      refine ⟨ls0, hd, ?_⟩
      rcases hc with ⟨h, _⟩ | ⟨hp, b, hb, _, dy, hdy, hc⟩
      · exact .inl h
      · rcases hc with ⟨_, _, h⟩ | ⟨hc, rfl⟩
        · exact .inl h
        · refine .inr ⟨hp, dy, allMoved_shift dy ls0, hc, ?_⟩
          intro b' f hb' hon hf
          rw [← row_iff hf]
          have := around_unique hb' (box_some hb)
          subst this
          have hdir := Props.C24_direction r ⟨b', e.layer, row p e, 0⟩ (by rw [hH]; exact hon)
          by_cases hrow : 1 ≤ row p e ∧ row p e ≤ 3
          · rw [if_pos hrow]
            rw [if_pos (by simp only; omega)] at hdir
            simp only at hdir; grind
          · rw [if_neg hrow]
            rw [if_neg (by simp only; omega)] at hdir
            simp only at hdir; grind
    · exact ih (k1.trans hH) e ls hmem

theorem apart_inner {p : Pipe} {d : Rat} {la lb : List Layer} {A B : Box} (hA : Around p la A) (hB : Around p lb B)
    (h : Apart d B A) {t t' : Text} (ht : Layer.text t ∈ la) (ht' : Layer.text t' ∈ lb) : Apart d (room p t') (room p t) := by
  have h1 := hA.inside t ht
  have h2 := hB.inside t' ht'
  unfold Apart at *
  grind

theorem stacking {p : Pipe} {draw : Ev → Outcome (List Layer)} {evs : List Ev} {out : List Layer}
    {parts : List (Ev × List Layer)} (h1 : parts.map (·.1) = sorted evs) (h2 : out = parts.flatMap (·.2))
    (h3 : Run p draw ⟨p.screenH, [], 2⟩ parts) : Stacking p draw evs out parts := by
  refine ⟨by rw [h1]; exact drawn_sorted evs, h2, run_moved h3 rfl, ?_, ?_⟩
  · apply (run_apart h3 rfl rfl).imp
    intro a b hab hl hp1 hp2 hin t t' ht ht'
    obtain ⟨A, hA⟩ := around_text (p := p) ht
    obtain ⟨B, hB⟩ := around_text (p := p) ht'
    have hA := box_some hA
    have hB := box_some hB
    obtain ⟨s1, m1, e1⟩ := hB.top
    obtain ⟨s2, m2, e2⟩ := hB.bottom
    have g1 := (hin s1 m1).1
    have g2 := (hin s2 m2).2
    exact apart_inner hA hB (hab hl hp1 hp2 A B hA hB (by grind) (by grind)) ht ht'
  · intro before after e ls ls0 b heq hd hb hon hbef
    exact run_still h3 rfl rfl before after e ls ls0 b heq hd hb hon (by simp) hbef

/-- Leaving out the events that say where they stand changes nothing for the others. -/
theorem loop_filter {p : Pipe} {draw : Ev → Outcome (List Layer)} {r : Resolver} {parts : List (Ev × List Layer)}
    (h : Run p draw r parts) :
    loop p draw r ((parts.map (·.1)).filter fun e => !pinned e) =
      .ok ((parts.filter fun q => !pinned q.1).flatMap (·.2)) := by
  induction h with
  | nil r => rfl
  | @cons r r' e0 ls1 rest hs hr ih =>
    simp only [List.map_cons]
    cases hp : pinned e0 with
    | true =>
      rw [List.filter_cons_of_neg (by simp [hp]), List.filter_cons_of_neg (by simp [hp])]
      obtain ⟨ls0, _, hc⟩ := step_ok hs
      rcases hc with ⟨_, hr', _⟩ | ⟨hn, _⟩
      · rw [← hr']; exact ih
      · exact absurd (pinned_iff.1 hp) hn
    | false =>
      rw [List.filter_cons_of_pos (by simp [hp]), List.filter_cons_of_pos (by simp [hp])]
      simp only [loop]
      rw [hs]
      simp only
      rw [ih, List.flatMap_cons]

theorem loop_total {p : Pipe} {draw : Ev → Outcome (List Layer)} : ∀ {l : List Ev} {r : Resolver},
    (∃ out, loop p draw r l = .ok out) ↔ ∀ e ∈ l, ∃ ls, draw e = .ok ls := by
  intro l
  induction l with
  | nil => intro r; simp [loop]
  | cons e l ih =>
    intro r
    constructor
    · rintro ⟨out, h⟩
      simp only [loop] at h
      cases hs : step p draw r e with
      | err => rw [hs] at h; cases h
      | panic => rw [hs] at h; cases h
      | ok q =>
        obtain ⟨ls, r'⟩ := q
        obtain ⟨ls0, hd, _⟩ := step_ok hs
        rw [hs] at h
        simp only at h
        cases hl : loop p draw r' l with
        | err => rw [hl] at h; cases h
        | panic => rw [hl] at h; cases h
        | ok rest =>
          intro e' he'
          rcases List.mem_cons.1 he' with rfl | he'
          · exact ⟨ls0, hd⟩
          · exact (ih (r := r')).1 ⟨rest, hl⟩ e' he'
    · intro h
      obtain ⟨ls0, hd⟩ := h e (by simp)
      have : ∃ ls r', step p draw r e = .ok (ls, r') := by
        unfold step
        rw [hd]
        simp only
        split
        · exact ⟨_, _, rfl⟩
        · split
          · exact ⟨_, _, rfl⟩
          · exact ⟨_, _, rfl⟩
      obtain ⟨ls, r', hs⟩ := this
      obtain ⟨rest, hl⟩ := (ih (r := r')).2 fun e' he' => h e' (by simp [he'])
      exact ⟨ls ++ rest, by simp only [loop]; rw [hs]; simp only; rw [hl]⟩

end Verif.Stack
