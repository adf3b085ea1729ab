import Verif.Model.Lookup
import Verif.Spec.Lookup
import Verif.Lemmas.UpdateX
import Verif.Lemmas.Script
namespace Verif.Lookup
open Verif
open Verif.Ast
open Verif.Parser
open Verif.Update (Kind kind span kind_eq covers_iff ordered_mid not_spanned spanned_mid)
open Verif.Spec.Update
open Verif.Spec.Lookup
open Verif.Spec.Script (Line size sizes Opens StylesName Seg Segments unlines Document)
open Verif.Spec.InfoCmd (Stripped)
open Verif.Spec.EventCmd (White)

theorem any_iff {o : Nat} {x : Section} : (span x).any (fun p => decide (p.start ≤ o) && decide (o < p.stop)) = true ↔ Spanned o x :=
  covers_iff (o := o) (s := x)

theorem span_extent (x : Section) : (span x).map (fun p => (p.start, p.stop)) =
    ((places x).head?.bind fun a => (places x).getLast?.map fun b => (a.start, b.stop)) := by
  cases x with
  | info f s => rfl
  | styles l => 
    show (Update.merged (l.map (·.2))).map _ = _
    unfold Update.merged places
    cases (l.map (·.2)).head? <;> cases (l.map (·.2)).getLast? <;> rfl
  | events l => 
    show (Update.merged (l.map (·.2))).map _ = _
    unfold Update.merged places
    cases (l.map (·.2)).head? <;> cases (l.map (·.2)).getLast? <;> rfl
  | fonts l => 
    show (Update.merged (l.map (·.span))).map _ = _
    unfold Update.merged places
    cases (l.map (·.span)).head? <;> cases (l.map (·.span)).getLast? <;> rfl
  | graphics l => 
    show (Update.merged (l.map (·.span))).map _ = _
    unfold Update.merged places
    cases (l.map (·.span)).head? <;> cases (l.map (·.span)).getLast? <;> rfl

theorem span_iff {x : Section} {a b : Nat} : (span x).map (fun p => (p.start, p.stop)) = some (a, b) ↔ Extent x a b := by
  rw [span_extent]
  unfold Extent
  constructor
  · intro h
    cases h1 : (places x).head? with
    | none => rw [h1] at h; cases h
    | some u =>
      cases h2 : (places x).getLast? with
      | none => rw [h1, h2] at h; cases h
      | some v =>
        rw [h1, h2] at h
        simp only [Option.bind_some, Option.map_some, Option.some.injEq, Prod.mk.injEq] at h
        exact ⟨u, v, rfl, rfl, h.1, h.2⟩
  · rintro ⟨u, v, h1, h2, rfl, rfl⟩
    rw [h1, h2]; rfl

theorem span_none {x : Section} : span x = none ↔ places x = [] := by
  have h := span_extent x
  constructor
  · intro e
    rw [e] at h
    cases hp : places x with
    | nil => rfl
    | cons a l =>
      rw [hp, List.getLast?_cons] at h
      cases h
  · intro e
    rw [e] at h
    cases hs : span x with
    | none => rfl
    | some s => rw [hs] at h; cases h

/-- What one section adds. -/
theorem parseBody_new (name : Str) {p q : St} (h : parseBody name p = some q) :
    (q.sections = p.sections ∧ ∀ k, ¬ Named (trim name) k) ∨
    ∃ sec, q.sections = p.sections ++ [sec] ∧ Bounded p.off q.off (places sec) ∧ Named (trim name) (kindOf sec) := by
  unfold parseBody at h
  simp only at h
  by_cases h1 : trim name = "Script Info".toList
  · rw [if_pos h1] at h
    cases hl : sectionLoop infoStep (p.rest.length + 1) ⟨[], none, []⟩ p.tracker with
    | none => rw [hl] at h; cases h
    | some r =>
      obtain ⟨s, t⟩ := r
      rw [hl] at h
      injection h with h
      subst h
      have := (sectionLoop_inv infoStep (fun _ _ => True) (fun _ _ _ _ _ => trivial) (fun _ _ _ _ => trivial) _ _ _ _ _ trivial hl).2
      exact Or.inr ⟨.info s.fields (t.spanFrom p.tracker), rfl, Bounded.single (Nat.le_refl _) this (Nat.le_refl _), by rw [h1]; exact .info⟩
  · rw [if_neg h1] at h
    by_cases h2 : trim name = "V4+ Styles".toList ∨ trim name = "V4 Styles".toList ∨ trim name = "V4++ Styles".toList
    · rw [if_pos h2] at h
      cases hl : sectionLoop styleStep (p.rest.length + 1) ⟨none, [], []⟩ p.tracker with
      | none => rw [hl] at h; cases h
      | some r =>
        obtain ⟨s, t⟩ := r
        rw [hl] at h
        injection h with h
        subst h
        have := (sectionLoop_inv styleStep (fun (s : StylesSt) o => Bounded p.off o (s.styles.map (fun x : Style × Span => x.2))) (fun s a b h hab => h.mono hab)
          (fun s t line h => styleStep_inv p.off s t line h) _ _ _ _ _ (Bounded.nil (Nat.le_refl _)) hl).1
        exact Or.inr ⟨.styles s.styles, rfl, this, .styles h2⟩
    · rw [if_neg h2] at h
      by_cases h3 : trim name = "Events".toList
      · rw [if_pos h3] at h
        cases hl : sectionLoop eventStep (p.rest.length + 1) ⟨none, [], []⟩ p.tracker with
        | none => rw [hl] at h; cases h
        | some r =>
          obtain ⟨s, t⟩ := r
          rw [hl] at h
          injection h with h
          subst h
          have := (sectionLoop_inv eventStep (fun (s : EventsSt) o => Bounded p.off o (s.events.map (fun x : Event × Span => x.2))) (fun s a b h hab => h.mono hab)
            (fun s t line h => eventStep_inv p.off s t line h) _ _ _ _ _ (Bounded.nil (Nat.le_refl _)) hl).1
          exact Or.inr ⟨.events s.events, rfl, this, by rw [h3]; exact .events⟩
      · rw [if_neg h3] at h
        by_cases h4 : trim name = "Fonts".toList
        · rw [if_pos h4] at h
          cases hl : binaryLoop "fontname".toList (p.rest.length + 1) [] p.tracker with
          | none => rw [hl] at h; cases h
          | some r =>
            obtain ⟨l, t⟩ := r
            rw [hl] at h
            injection h with h
            subst h
            exact Or.inr ⟨.fonts l, rfl, binaryLoop_inv _ p.off _ _ _ _ _ (Bounded.nil (Nat.le_refl _)) hl, by rw [h4]; exact .fonts⟩
        · rw [if_neg h4] at h
          by_cases h5 : trim name = "Graphics".toList
          · rw [if_pos h5] at h
            cases hl : binaryLoop "filename".toList (p.rest.length + 1) [] p.tracker with
            | none => rw [hl] at h; cases h
            | some r =>
              obtain ⟨l, t⟩ := r
              rw [hl] at h
              injection h with h
              subst h
              exact Or.inr ⟨.graphics l, rfl, binaryLoop_inv _ p.off _ _ _ _ _ (Bounded.nil (Nat.le_refl _)) hl, by rw [h5]; exact .graphics⟩
          · rw [if_neg h5] at h
            cases hk : skipToNext (p.rest.length + 1) p with
            | none => rw [hk] at h; cases h
            | some u =>
              rw [hk] at h
              simp only at h
              cases hk2 : skipToNext (u.rest.length + 1) u with
              | none => rw [hk2] at h; cases h
              | some v =>
                rw [hk2] at h
                injection h with h
                subst h
                refine Or.inl ⟨?_, ?_⟩
                · obtain ⟨u', a1, -, -, a2, -⟩ := skipToNext_spec (p.rest.length + 1) p (by omega)
                  rw [hk] at a1
                  obtain rfl := Option.some.inj a1
                  obtain ⟨v', b1, -, -, b2, -⟩ := skipToNext_spec (u.rest.length + 1) u (by omega)
                  rw [hk2] at b1
                  obtain rfl := Option.some.inj b1
                  exact b2.2.1.trans a2.2.1
                · intro k hk
                  generalize trim name = n at *
                  cases hk with
                  | info => exact h1 rfl
                  | styles h => exact h2 h
                  | events => exact h3 rfl
                  | fonts => exact h4 rfl
                  | graphics => exact h5 rfl

theorem unlines_suffix : ∀ (A B : List Str), byteLen (unlines B) ≤ byteLen (unlines (A ++ B))
  | [], B => Nat.le_refl _
  | a :: A, B => by
    by_cases h : A ++ B = []
    · obtain ⟨rfl, rfl⟩ := List.append_eq_nil_iff.1 h
      exact Nat.zero_le _
    · have := unlines_suffix A B
      rw [List.cons_append, unlines_cons h, byteLen_append, byteLen_cons]
      omega

theorem tail_le (s : Str) : byteLen (tail s) ≤ byteLen s := by
  unfold tail
  refine Nat.le_trans (byteLen_suffix (trimStart_suffix _)) ?_
  have h := unlines_suffix ((splitOn '\n' s).takeWhile (fun l => !opens l)) ((splitOn '\n' s).dropWhile (fun l => !opens l))
  rw [List.takeWhile_append_dropWhile, unlines_eq, unlines_eq, joinSep_splitOn] at h
  exact h

theorem unlines_append : ∀ {A B : List Str}, A ≠ [] → B ≠ [] → unlines (A ++ B) = unlines A ++ '\n' :: unlines B
  | [], _, h, _ => absurd rfl h
  | [a], B, _, hB => unlines_cons hB
  | a :: b :: A, B, _, hB => by
    have ih := unlines_append (A := b :: A) (by simp) hB
    rw [List.cons_append, unlines_cons (by simp), ih, unlines_cons (l := a) (L := b :: A) (by simp)]
    simp

theorem sizes_unlines : ∀ {L : List Str}, L ≠ [] → byteLen (unlines L) + 1 = sizes L
  | [], h => absurd rfl h
  | [l], _ => rfl
  | l :: m :: L, _ => by
    have := sizes_unlines (L := m :: L) (by simp)
    rw [unlines_cons (by simp), byteLen_append, byteLen_cons, show Char.utf8Size '\n' = 1 by decide]
    show _ = size l + 1 + sizes (m :: L)
    rw [size_eq]
    omega

/-- The loop of the parser on lines that fall into sections. -/
theorem mainLoop_stands {o : Nat} {L : List Str} {segs : List Seg} (h : Segments o L segs) : ∀ {n : Nat} {p : St},
    p.rest.length < n → (∀ l ∈ L, '\n' ∉ l) → tail p.rest = trimStart (unlines L) →
    (L ≠ [] → p.off + byteLen p.rest = o + byteLen (unlines L)) →
    ∃ q ss, mainLoop n p = some q ∧ q.sections = p.sections ++ ss ∧ Stands o L ss := by
  induction h with
  | nil o =>
    intro n p hn hL ht _
    obtain ⟨m, q, e1, e2, e3, ha, -⟩ := mainLoop_reach hn (Or.inl ht)
    have hq : q.rest = [] := by rw [e3, ht]; rfl
    obtain ⟨m, rfl⟩ : ∃ k, m = k + 1 := ⟨m - 1, by omega⟩
    refine ⟨q, [], ?_, by rw [ha.2.1]; simp, .nil o⟩
    rw [e1, mainLoop, if_pos hq]
  | @cons o hd raw bd rest segs hh hb hr ih =>
    intro n p hn hL ht hoff
    have hready := ready_lines (.cons hh hb hr) hL ht
    obtain ⟨m, q, e1, e2, e3, ha, e4⟩ := mainLoop_reach hn hready
    obtain ⟨w, x, ehd, hw, hn'⟩ := hh
    -- the text at the header
    obtain ⟨y, hy, hyL⟩ : ∃ y, unlines (hd :: (bd ++ rest)) = hd ++ y ∧
        ((bd ++ rest = [] ∧ y = []) ∨ (bd ++ rest ≠ [] ∧ y = '\n' :: unlines (bd ++ rest))) := by
      by_cases hne : bd ++ rest = []
      · exact ⟨[], by rw [hne]; simp [unlines], Or.inl ⟨hne, rfl⟩⟩
      · exact ⟨_, unlines_cons hne, Or.inr ⟨hne, rfl⟩⟩
    have hww : ∀ c ∈ w, isWs c = true := fun c hc => (SrtDoc.white_iff c).2 (hw c hc)
    have hq : q.rest = '[' :: raw ++ ']' :: (x ++ y) := by
      rw [e3, ht, hy, ehd]
      have : w ++ '[' :: raw ++ ']' :: x ++ y = w ++ '[' :: (raw ++ ']' :: (x ++ y)) := by simp
      rw [this, trimStart_append_ws _ hww, trimStart_cons isWs_bracket]
      rfl
    obtain ⟨m, rfl⟩ : ∃ k, m = k + 1 := ⟨m - 1, by omega⟩
    have hqne : q.rest ≠ [] := by rw [hq]; simp
    have htop : skipTop (q.rest.length + 1) q = some q := by
      apply skipTop_at
      right
      have hts : trimStart q.rest = q.rest := by
        rw [hq]; exact trimStart_cons isWs_bracket
      refine ⟨hts, ?_⟩
      rw [hts, hq]
      rintro (h | h)
      · obtain ⟨r, hr⟩ := startsWith_iff.1 h
        simp at hr
      · obtain ⟨r, hr⟩ := startsWith_iff.1 h
        simp at hr
    have hsp : splitOnce ']' q.rest = some ('[' :: raw, x ++ y) := by
      rw [hq]
      apply splitOnce_append
      simp [hn']
    have hxl : '\n' ∉ x := by
      intro h; apply hL hd (by simp); rw [ehd]; simp [h]
    -- after the header line
    have hsk : (({ q with rest := x ++ y, off := q.off + byteLen ('[' :: raw) + 1 } : St).skipLine).rest = unlines (bd ++ rest) := by
      unfold St.skipLine
      simp only
      rcases hyL with ⟨h0, rfl⟩ | ⟨-, rfl⟩
      · rw [List.append_nil, splitOnce_none hxl, h0]; rfl
      · rw [splitOnce_append _ hxl]
    have hqb : byteLen q.rest = byteLen ('[' :: raw) + 1 + byteLen (x ++ y) := by
      rw [hq, byteLen_append, byteLen_cons ']', show Char.utf8Size ']' = 1 by decide]; omega
    have hskb : (({ q with rest := x ++ y, off := q.off + byteLen ('[' :: raw) + 1 } : St).skipLine).off +
        byteLen (unlines (bd ++ rest)) = p.off + byteLen p.rest := by
      rw [← hsk, St.skipLine_bytes]
      simp only
      omega
    have htot := hoff (by simp)
    have ha2 : bd ≠ [] → (({ q with rest := x ++ y, off := q.off + byteLen ('[' :: raw) + 1 } : St).skipLine).off =
        o + size hd + 1 := by
      intro hbd
      have hne : bd ++ rest ≠ [] := by simp [hbd]
      rw [unlines_cons hne, byteLen_append, byteLen_cons, show Char.utf8Size '\n' = 1 by decide] at htot
      rw [size_eq]; omega
    obtain ⟨r, f1, f2, f3, f4, f5⟩ := parseBody_spec (raw := raw) hr hb (fun l hl => hL l (by simp at hl ⊢; exact Or.inr hl)) hsk ha2
    have hone : parseOne q = some r := by
      unfold parseOne
      rw [if_pos (by rw [hq]; exact startsWith_iff.2 ⟨_, rfl⟩), hsp]
      exact f1
    have hlt : r.rest.length < m := by
      have h1 := f2.length_le
      have h2 := (St.skipLine_suffix ({ q with rest := x ++ y, off := q.off + byteLen ('[' :: raw) + 1 } : St)).length_le
      have h3 : q.rest.length = raw.length + 2 + (x ++ y).length := by rw [hq]; simp; omega
      simp only at h2
      omega
    have hoff2 : rest ≠ [] → r.off + byteLen r.rest = o + size hd + 1 + sizes bd + byteLen (unlines rest) := by
      intro hrest
      rw [f4, hsk, hskb]
      have hne : bd ++ rest ≠ [] := by simp [hrest]
      rw [unlines_cons hne, byteLen_append, byteLen_cons, size_unlines hrest, show Char.utf8Size '\n' = 1 by decide] at htot
      rw [size_eq]; omega
    obtain ⟨z, ss, g1, g2, g3⟩ := ih hlt (fun l hl => hL l (by simp [hl])) f3 hoff2
    have hsame := (same_skipLine ({ q with rest := x ++ y, off := q.off + byteLen ('[' :: raw) + 1 } : St))
    have hmain : mainLoop n p = some z := by
      rw [e1, mainLoop, if_neg hqne, htop]
      simp only
      rw [if_neg hqne, hone]
      exact g1
    have hsec : (({ q with rest := x ++ y, off := q.off + byteLen ('[' :: raw) + 1 } : St).skipLine).sections = p.sections := by
      rw [hsame.2.1]
      exact ha.2.1
    have hname := InfoCmd.stripped_trim raw
    have ha3 : bd ++ rest ≠ [] → (({ q with rest := x ++ y, off := q.off + byteLen ('[' :: raw) + 1 } : St).skipLine).off =
        o + size hd + 1 := by
      intro hne
      rw [unlines_cons hne, byteLen_append, byteLen_cons, show Char.utf8Size '\n' = 1 by decide] at htot
      rw [size_eq]; omega
    generalize hP : ({ q with rest := x ++ y, off := q.off + byteLen ('[' :: raw) + 1 } : St).skipLine = P at *
    rcases parseBody_new raw f1 with ⟨k1, k2⟩ | ⟨sec, k1, k2, k3⟩
    · refine ⟨z, ss, hmain, by rw [g2, k1, hsec], ?_⟩
      subst ehd
      exact .unknown hw hn' hb hname k2 g3
    · refine ⟨z, sec :: ss, hmain, by rw [g2, k1, hsec]; simp, ?_⟩
      subst ehd
      refine .known hw hn' hb hname k3 ?_ g3
      rintro v ⟨a, b, h1, h2, h3, h4⟩
      have b1 := (k2.2.1 a (List.mem_of_head? h1)).1
      have b2 := (k2.2.1 b (List.mem_of_getLast? h2)).2
      have hne : bd ++ rest ≠ [] := by
        intro h0
        have : P.rest = [] := by rw [hsk, h0]; rfl
        have h5 : byteLen P.rest = 0 := by rw [this]; rfl
        omega
      have ha4 := ha3 hne
      refine ⟨by omega, ?_, ?_⟩
      · intro hr0
        have hbd : bd ≠ [] := by intro h0; exact hne (by rw [h0, hr0]; rfl)
        have h5 := sizes_unlines hbd
        rw [hr0, List.append_nil] at hsk
        rw [hsk] at f4
        omega
      · intro w' r' hh' hw'
        obtain ⟨rest', rfl⟩ : ∃ rest', rest = (w' ++ '[' :: r') :: rest' := by
          cases rest with
          | nil => cases hh'
          | cons u v => exact ⟨v, by simp at hh'; rw [hh']⟩
        have h5 := hoff2 (by simp)
        obtain ⟨y', hy'⟩ : ∃ y', unlines ((w' ++ '[' :: r') :: rest') = w' ++ '[' :: y' := by
          cases rest' with
          | nil => exact ⟨r', rfl⟩
          | cons u v => exact ⟨_, by rw [unlines_cons (by simp)]; simp; rfl⟩
        rw [hy', trimStart_append_ws _ (fun c hc => (SrtDoc.white_iff c).2 (hw' c hc)), trimStart_cons isWs_bracket] at f3
        rw [hy', byteLen_append] at h5
        have h6 := tail_le r.rest
        rw [f3] at h6
        rw [size_eq w']
        omega

theorem not_spanned_left {o : Nat} {sec : Section} {n : Nat} (h : ∀ x ∈ places sec, n ≤ x.start) (hn : o < n) : ¬ Spanned o sec := by
  rintro ⟨a, b, ha, _, ho, _⟩
  have := h a (List.mem_of_head? ha)
  omega

/-- An offset between the first and the last thing of a section is so of no other. -/
theorem spanned_unique {A B : List Section} {sec : Section} {o : Nat} (h : Ordered ((A ++ sec :: B).flatMap places))
    (hs : Spanned o sec) : (∀ x ∈ A, ¬ Spanned o x) ∧ ∀ x ∈ B, ¬ Spanned o x := by
  rw [List.flatMap_append, List.flatMap_cons] at h
  obtain ⟨a, b, h1, h2, h3, h4⟩ := hs
  obtain ⟨-, hp⟩ := h
  rw [List.pairwise_append, List.pairwise_append] at hp
  obtain ⟨-, ⟨-, -, hp1⟩, hp2⟩ := hp
  constructor
  · intro x hx
    refine not_spanned (n := a.start) ?_ h3
    intro y hy
    exact hp2 y (List.mem_flatMap.2 ⟨x, hx, hy⟩) a (List.mem_append_left _ (List.mem_of_head? h1))
  · intro x hx
    refine not_spanned_left (n := b.stop) ?_ h4
    intro y hy
    exact hp1 b (List.mem_of_getLast? h2) y (List.mem_flatMap.2 ⟨x, hx, hy⟩)

theorem find_mid {o : Nat} {A B : List Section} {sec : Section} (h1 : ∀ x ∈ A, ¬ Spanned o x) (h2 : Spanned o sec) :
    (A ++ sec :: B).find? (fun x => (span x).any (fun p => decide (p.start ≤ o) && decide (o < p.stop))) = some sec := by
  rw [List.find?_append, List.find?_eq_none.2 (fun x hx => fun h => h1 x hx (any_iff.1 h)), Option.none_or]
  exact List.find?_cons_of_pos (p := fun x => (span x).any (fun p => decide (p.start ≤ o) && decide (o < p.stop))) (any_iff.2 h2)

/-- The ranges of sections whose places are in order. -/
theorem boundaries_ordered : ∀ {l : List Section}, Ordered (l.flatMap places) →
    (∀ r ∈ l.filterMap (fun x => (span x).map (fun p => (kind x, p.start, p.stop))), r.2.1 ≤ r.2.2) ∧
    (l.filterMap (fun x => (span x).map (fun p => (kind x, p.start, p.stop)))).Pairwise (fun a b => a.2.2 ≤ b.2.1)
  | [], _ => ⟨by simp, by simp⟩
  | x :: l, h => by
    rw [List.flatMap_cons] at h
    obtain ⟨h0, hp⟩ := h
    rw [List.pairwise_append] at hp
    obtain ⟨hp1, hp2, hp3⟩ := hp
    obtain ⟨ih1, ih2⟩ := boundaries_ordered (l := l) ⟨fun s hs => h0 s (List.mem_append_right _ hs), hp2⟩
    cases hs : span x with
    | none =>
      rw [List.filterMap_cons]
      simp only [hs, Option.map_none]
      exact ⟨ih1, ih2⟩
    | some s =>
      rw [List.filterMap_cons]
      simp only [hs, Option.map_some]
      have he : Extent x s.start s.stop := span_iff.1 (by rw [hs]; rfl)
      obtain ⟨a, b, e1, e2, e3, e4⟩ := he
      have hle : s.start ≤ s.stop := by
        have ha := h0 a (List.mem_append_left _ (List.mem_of_head? e1))
        have hb := h0 b (List.mem_append_left _ (List.mem_of_getLast? e2))
        cases hpl : places x with
        | nil => rw [hpl] at e1; cases e1
        | cons u v =>
          rw [hpl] at e1 e2 hp1
          simp only [List.head?_cons, Option.some.injEq] at e1
          subst e1
          cases v with
          | nil => simp only [List.getLast?_singleton, Option.some.injEq] at e2; subst e2; omega
          | cons v w =>
            rw [List.getLast?_cons_cons] at e2
            have := (List.pairwise_cons.1 hp1).1 b (List.mem_of_getLast? e2)
            omega
      refine ⟨?_, ?_⟩
      · intro r hr
        rcases List.mem_cons.1 hr with rfl | hr
        · exact hle
        · exact ih1 r hr
      · rw [List.pairwise_cons]
        refine ⟨?_, ih2⟩
        intro r hr
        obtain ⟨y, hy, hr⟩ := List.mem_filterMap.1 hr
        cases hsy : span y with
        | none => rw [hsy] at hr; cases hr
        | some t =>
          rw [hsy] at hr
          simp only [Option.map_some, Option.some.injEq] at hr
          subst hr
          obtain ⟨c, d, f1, f2, f3, f4⟩ := (span_iff.1 (by rw [hsy]; rfl) : Extent y t.start t.stop)
          have := hp3 b (List.mem_of_getLast? e2) c (List.mem_flatMap.2 ⟨y, hy, List.mem_of_head? f1⟩)
          simp only
          omega

end Verif.Lookup
