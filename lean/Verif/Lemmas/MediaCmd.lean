import Verif.Lemmas.Media
/-! The commands on embedded files. -/
namespace Verif.Media
open Verif
open Verif.Parser (unlines_cons unlines_eq)
open Verif.Spec.Script (unlines)
open Verif.Spec.Media
open Verif.Spec.InfoCmd (Stripped)

theorem splitOn_at (s : Str) : ∀ p : Str, splitOn '\n' (p ++ '\n' :: s) = splitOn '\n' p ++ splitOn '\n' s := by
  intro p
  rcases h : splitOnce '\n' p with _ | ⟨a, b⟩
  · rw [splitOn_append_sep _ (splitOnce_eq_none h), splitOn_of_not_mem (splitOnce_eq_none h)]; rfl
  · obtain ⟨e, ha⟩ := splitOnce_some h
    have hlt : b.length < p.length := by rw [e]; simp; omega
    have ih := splitOn_at s b
    rw [e, List.append_assoc, List.cons_append, splitOn_append_sep _ ha, splitOn_append_sep _ ha, ih]; rfl
termination_by p => p.length

theorem splitOn_head (c : Char) (hc : c ≠ '\n') (s : Str) : ∃ l L, splitOn '\n' (c :: s) = (c :: l) :: L := by
  rcases h : splitOnce '\n' s with _ | ⟨a, b⟩
  · have hn := splitOnce_eq_none h
    exact ⟨s, [], splitOn_of_not_mem (by simp [hn, hc.symm])⟩
  · obtain ⟨e, ha⟩ := splitOnce_some h
    refine ⟨a, splitOn '\n' b, ?_⟩
    rw [e, ← List.cons_append, splitOn_append_sep _ (by simp [ha, hc.symm])]

theorem lacks_iff (s : Str) : Lacks "\n[".toList s ↔ ∀ l ∈ (splitOn '\n' s).tail, l.head? ≠ some '[' := by
  constructor
  · intro h l hl hh
    rcases e : splitOnce '\n' s with _ | ⟨a, b⟩
    · rw [splitOn_of_not_mem (splitOnce_eq_none e)] at hl; cases hl
    · obtain ⟨e1, ha⟩ := splitOnce_some e
      rw [e1, splitOn_append_sep _ ha, List.tail_cons] at hl
      obtain ⟨pre, post, e2, h1, -⟩ := piece_of hl
      cases l with
      | nil => cases hh
      | cons c l =>
        rw [Option.some.inj hh] at e2
        rcases h1 with h1 | h1
        · rw [h1] at e2
          exact h a (l ++ post) (by rw [e1, e2]; simp)
        · have hn : pre ≠ [] := by intro h2; rw [h2] at h1; cases h1
          have : pre = pre.dropLast ++ ['\n'] := by
            conv => lhs; rw [← List.dropLast_concat_getLast hn]
            rw [List.getLast?_eq_some_getLast hn] at h1
            rw [Option.some.inj h1]
          exact h (a ++ '\n' :: pre.dropLast) (l ++ post) (by rw [e1, e2]; conv => lhs; rw [this]
                                                              simp)
  · rintro h a b rfl
    have e : a ++ "\n[".toList ++ b = a ++ '\n' :: ('[' :: b) := by simp
    rw [e, splitOn_at] at h
    obtain ⟨l, L, e2⟩ := splitOn_head '[' (by decide) b
    rw [e2] at h
    refine h ('[' :: l) ?_ rfl
    cases hx : splitOn '\n' a with
    | nil => exact absurd hx (splitOn_ne_nil _ _)
    | cons y Y => simp

theorem parts_place {hd c pre sec post : Str} (h1 : '\n' ∉ hd) (h : parts hd c = some (pre, sec, post)) :
    Place hd c pre sec post := by
  unfold parts at h
  cases e : splitOnceStr hd c with
  | none => rw [e] at h; cases h
  | some p =>
    obtain ⟨pre', b⟩ := p
    rw [e] at h
    obtain ⟨e1, hf⟩ := splitOnceStr_some e
    simp only at h
    cases e2 : splitOnceStr "\n[".toList (hd ++ b) with
    | none =>
      rw [e2] at h
      obtain ⟨rfl, h'⟩ := Prod.mk.inj (Option.some.inj h)
      obtain ⟨rfl, rfl⟩ := Prod.mk.inj h'
      exact ⟨by rw [e1]; simp, ⟨b, rfl⟩, hf, splitOnceStr_none.1 e2, Or.inl rfl⟩
    | some q =>
      obtain ⟨s', r⟩ := q
      rw [e2] at h
      obtain ⟨rfl, h'⟩ := Prod.mk.inj (Option.some.inj h)
      obtain ⟨rfl, rfl⟩ := Prod.mk.inj h'
      obtain ⟨e3, hf2⟩ := splitOnceStr_some e2
      have hx : ∃ x, s' = hd ++ x := by
        rw [List.append_assoc] at e3
        rcases List.append_eq_append_iff.1 e3 with ⟨as, k1, -⟩ | ⟨bs, k1, k2⟩
        · exact ⟨as, k1⟩
        · cases bs with
          | nil => exact ⟨[], by rw [k1]; simp⟩
          | cons d bs =>
            have : '\n' = d := (List.cons.inj k2).1
            exact absurd (by rw [k1, this]; simp) h1
      refine ⟨by rw [e1, List.append_assoc, e3]; simp, hx, hf, ?_, Or.inr ⟨r, rfl⟩⟩
      intro a b' hab
      have := hf2 a (b' ++ "\n[".toList ++ r) (by rw [e3, hab]; simp)
      rw [hab] at this
      simp at this
      omega

theorem place_parts {hd c pre sec post : Str} (h : Place hd c pre sec post) : parts hd c = some (pre, sec, post) := by
  obtain ⟨h1, ⟨x, hx⟩, h3, h4, h5⟩ := h
  have e : splitOnceStr hd c = some (pre, x ++ post) := by
    have : c = pre ++ hd ++ (x ++ post) := by rw [h1, hx]; simp
    rw [this]
    apply splitOnceStr_first
    intro a b hab
    exact h3 a b (by rw [this, hab])
  unfold parts
  rw [e]
  simp only
  have e2 : hd ++ (x ++ post) = sec ++ post := by rw [hx]; simp
  rw [e2]
  rcases h5 with h5 | ⟨r, h5⟩
  · have : splitOnceStr "\n[".toList (sec ++ post) = none := by
      rw [splitOnceStr_none, h5, List.append_nil]; exact h4
    rw [this, h5]; simp
  · have : splitOnceStr "\n[".toList (sec ++ post) = some (sec, r) := by
      rw [h5, ← List.append_assoc]
      apply splitOnceStr_first
      intro a b hab
      rcases Nat.lt_or_ge a.length sec.length with hlt | hge
      · exfalso
        rw [List.append_assoc, List.append_assoc] at hab
        rcases List.append_eq_append_iff.1 hab with ⟨as, k1, -⟩ | ⟨bs, k1, k2⟩
        · rw [k1] at hlt; simp at hlt; omega
        · -- sec = a ++ bs
          match bs, k2 with
          | [], _ => rw [k1] at hlt; simp at hlt
          | [d], k2 =>
            have k3 : '[' = '\n' := by
              have := (List.cons.inj k2).2
              exact (List.cons.inj this).1
            exact absurd k3 (by decide)
          | d :: d2 :: bs, k2 =>
            have k5 : '\n' :: '[' :: b = d :: d2 :: (bs ++ ("\n[".toList ++ r)) := by simpa using k2
            obtain ⟨i1, k3⟩ := List.cons.inj k5
            obtain ⟨i2, k4⟩ := List.cons.inj k3
            exact h4 a bs (by rw [k1, ← i1, ← i2]; simp)
      · exact hge
    rw [this, h5]

/-- The name a line gives. -/
def named (key l : Str) : Option Str := (stripPrefix (key ++ ": ".toList) l).map trim

theorem named_cr (key l : Str) : named key (stripCr l) = named key l := by
  unfold stripCr
  by_cases h : l.getLast? = some '\r'
  · rw [if_pos h]
    have hn : l ≠ [] := by intro h2; rw [h2] at h; cases h
    have hl : l = l.dropLast ++ ['\r'] := by
      conv => lhs; rw [← List.dropLast_concat_getLast hn]
      rw [List.getLast?_eq_some_getLast hn] at h
      rw [Option.some.inj h]
    generalize l.dropLast = m at hl ⊢
    rw [hl]
    unfold named
    cases e : stripPrefix (key ++ ": ".toList) m with
    | some n =>
      rw [stripPrefix_iff] at e
      rw [e, List.append_assoc, stripPrefix_append]
      simp only [Option.map_some]
      congr 1
      have : Spec.EventCmd.White '\r' := (SrtDoc.white_iff _).1 (by decide)
      exact (Handlers.trim_right (fun c hc => by rw [List.mem_singleton.1 hc]; exact this)).symm
    | none =>
      have : stripPrefix (key ++ ": ".toList) (m ++ ['\r']) = none := by
        cases e2 : stripPrefix (key ++ ": ".toList) (m ++ ['\r']) with
        | none => rfl
        | some n =>
          rw [stripPrefix_iff] at e2
          rcases List.eq_nil_or_concat n with hn | ⟨n', d, hn⟩
          · exfalso
            rw [hn, List.append_nil] at e2
            have := congrArg List.getLast? e2
            simp at this
          · rw [hn, List.concat_eq_append, ← List.append_assoc] at e2
            have := (List.append_inj' e2 rfl).1
            rw [this, stripPrefix_append] at e; cases e
      rw [this]
  · rw [if_neg h]

theorem named_nil (key : Str) : named key [] = none := by
  unfold named
  have : stripPrefix (key ++ ": ".toList) [] = none := by
    cases e : stripPrefix (key ++ ": ".toList) [] with
    | none => rfl
    | some n => rw [stripPrefix_iff] at e; simp at e
  rw [this]; rfl

theorem names_lines (key : Str) : ∀ s : Str, (lines s).filterMap (named key) = (splitOn '\n' s).filterMap (named key) := by
  intro s
  rcases h : splitOnce '\n' s with _ | ⟨a, b⟩
  · have hn := splitOnce_eq_none h
    rw [splitOn_of_not_mem hn]
    by_cases hs : s = []
    · rw [hs]; simp [named_nil]
    · rw [lines_last hn hs]
  · obtain ⟨e, ha⟩ := splitOnce_some h
    have hlt : b.length < s.length := by rw [e]; simp; omega
    have ih := names_lines key b
    rw [e, lines_append _ ha, splitOn_append_sep _ ha, List.filterMap_cons, List.filterMap_cons, named_cr, ih]
termination_by s => s.length

theorem list_eq {hd key c pre sec post : Str} (h : Place hd c pre sec post) :
    list hd key c = (splitOn '\n' sec).filterMap (named key) := by
  unfold list
  rw [place_parts h]
  exact names_lines key sec

theorem named_spec (key : Str) : ∀ L : List Str, Named key L (L.filterMap (named key))
  | [] => .nil
  | l :: L => by
    rw [List.filterMap_cons]
    cases e : stripPrefix (key ++ ": ".toList) l with
    | some n =>
      have : named key l = some (trim n) := by unfold named; rw [e]; rfl
      rw [this]
      rw [stripPrefix_iff] at e
      rw [e]
      exact .name (InfoCmd.stripped_trim n) (named_spec key L)
    | none =>
      have : named key l = none := by unfold named; rw [e]; rfl
      rw [this]
      refine .other ?_ (named_spec key L)
      intro n hn
      rw [hn, stripPrefix_append] at e; cases e

theorem entry_lines' (key name : Str) (ls : List Str) :
    entry key name ls = unlines ((key ++ ": ".toList ++ name) :: (ls ++ [[]])) := by
  have aux : ∀ ls : List Str, ls.flatMap (fun l => l ++ ['\n']) = unlines (ls ++ [[]]) := by
    intro ls
    induction ls with
    | nil => rfl
    | cons l ls ih => rw [List.flatMap_cons, ih, List.cons_append, unlines_cons (by simp)]; simp
  rw [entry, aux, unlines_cons (by simp)]; simp

theorem kind_ok {hd key : Str} (h : Kind hd key) : '\n' ∉ hd ∧ '\n' ∉ key ∧ (∃ x, hd = '[' :: x) ∧ ∃ y, key = 'f' :: y := by
  rcases h with ⟨rfl, rfl⟩ | ⟨rfl, rfl⟩
  · exact ⟨by decide, by decide, ⟨_, rfl⟩, ⟨_, rfl⟩⟩
  · exact ⟨by decide, by decide, ⟨_, rfl⟩, ⟨_, rfl⟩⟩

/-- The pieces of an entry. -/
theorem entry_pieces {hd key name : Str} {ls : List Str} (hk : Kind hd key) (hn : '\n' ∉ name) (hd' : DataLines key ls) :
    splitOn '\n' (entry key name ls) = (key ++ ": ".toList ++ name) :: (ls ++ [[]]) := by
  rw [entry_lines']
  apply Parser.split_unlines (by simp)
  intro l hl
  simp only [List.mem_cons, List.mem_append, List.not_mem_nil, or_false] at hl
  rcases hl with rfl | hl | rfl
  · simp only [List.mem_append, not_or]
    exact ⟨⟨(kind_ok hk).2.1, by decide⟩, hn⟩
  · exact (hd' l hl).1
  · simp

theorem entry_names {key name n' : Str} {ls : List Str} (hs : Stripped name n') (hd' : DataLines key ls) :
    ((key ++ ": ".toList ++ name) :: (ls ++ [[]])).filterMap (named key) = [n'] := by
  have h1 : named key (key ++ ": ".toList ++ name) = some n' := by
    unfold named; rw [stripPrefix_append]; simp [Handlers.stripped_eq hs]
  have h2 : ls.filterMap (named key) = [] := by
    rw [List.filterMap_eq_nil_iff]
    intro l hl
    unfold named
    cases e : stripPrefix (key ++ ": ".toList) l with
    | none => rfl
    | some x => rw [stripPrefix_iff] at e; exact absurd e ((hd' l hl).2.2 x)
  rw [List.filterMap_cons, h1, List.filterMap_append, h2]
  simp [named_nil]

theorem entry_heads {hd key name : Str} {ls : List Str} (hk : Kind hd key) (hd' : DataLines key ls) :
    ∀ l ∈ (key ++ ": ".toList ++ name) :: (ls ++ [[]]), l.head? ≠ some '[' := by
  intro l hl
  simp only [List.mem_cons, List.mem_append, List.not_mem_nil, or_false] at hl
  rcases hl with rfl | hl | rfl
  · obtain ⟨y, rfl⟩ := (kind_ok hk).2.2.2; simp
  · exact (hd' l hl).2.1
  · simp

/-- A first occurrence stays first when text is changed behind it. -/
theorem first_stays {hd pre x y : Str} (h : ∀ a b, pre ++ hd ++ x = a ++ hd ++ b → pre.length ≤ a.length) :
    ∀ a b, pre ++ hd ++ y = a ++ hd ++ b → pre.length ≤ a.length := by
  intro a b e
  rcases Nat.lt_or_ge a.length pre.length with hlt | hge
  · -- the earlier occurrence lies in `pre ++ hd`
    rcases List.append_eq_append_iff.1 e with ⟨as, k1, -⟩ | ⟨bs, k1, -⟩
    · have := congrArg List.length k1
      simp at this; omega
    · exact h a (bs ++ x) (by rw [k1]; simp)
  · exact hge

theorem place_add {hd key name c pre sec post : Str} {ls : List Str} (hk : Kind hd key) (hn : '\n' ∉ name)
    (hd' : DataLines key ls) (h : Place hd c pre sec post) (hsec : sec.getLast? = some '\n') :
    Place hd (add hd key name ls c) pre (sec ++ entry key name ls) post ∧
    splitOn '\n' (sec ++ entry key name ls) =
      (splitOn '\n' sec).dropLast ++ (key ++ ": ".toList ++ name) :: (ls ++ [[]]) ∧
    splitOn '\n' sec = (splitOn '\n' sec).dropLast ++ [[]] := by
  have hne : sec ≠ [] := by intro h2; rw [h2] at hsec; cases hsec
  have hs0 : sec = sec.dropLast ++ ['\n'] := by
    conv => lhs; rw [← List.dropLast_concat_getLast hne]
    rw [List.getLast?_eq_some_getLast hne] at hsec
    rw [Option.some.inj hsec]
  have hsp0 : splitOn '\n' sec = splitOn '\n' sec.dropLast ++ [[]] := by
    conv => lhs; rw [hs0, splitOn_at]
    rfl
  have hdl : (splitOn '\n' sec).dropLast = splitOn '\n' sec.dropLast := by rw [hsp0]; simp
  have hsp : splitOn '\n' (sec ++ entry key name ls) =
      (splitOn '\n' sec).dropLast ++ (key ++ ": ".toList ++ name) :: (ls ++ [[]]) := by
    have : sec ++ entry key name ls = sec.dropLast ++ '\n' :: entry key name ls := by
      conv => lhs; rw [hs0]
      simp
    rw [this, splitOn_at, hdl, entry_pieces hk hn hd']
  refine ⟨⟨?_, ?_, ?_, ?_, h.after⟩, hsp, by rw [hdl]; exact hsp0⟩
  · rw [add, place_parts h]
    simp
  · obtain ⟨x, hx⟩ := h.header
    exact ⟨x ++ entry key name ls, by rw [hx]; simp⟩
  · obtain ⟨x, hx⟩ := h.header
    have e1 : add hd key name ls c = pre ++ hd ++ (x ++ entry key name ls ++ post) := by
      rw [add, place_parts h, hx]; simp
    have hf := h.first
    rw [h.text, hx] at hf
    rw [e1]
    refine first_stays (x := x ++ post) ?_
    intro a b e
    exact hf a b (by rw [← e]; simp)
  · rw [lacks_iff, hsp]
    intro l hl
    have hold := (lacks_iff sec).1 h.inside
    rw [hsp0] at hold
    rw [hdl] at hl
    cases hx : splitOn '\n' sec.dropLast with
    | nil => exact absurd hx (splitOn_ne_nil _ _)
    | cons y Y =>
      rw [hx] at hl hold
      simp only [List.cons_append, List.tail_cons] at hl hold
      rcases List.mem_append.1 hl with hl | hl
      · exact hold l (List.mem_append_left _ hl)
      · exact entry_heads hk hd' l hl

theorem place_add_new {hd key name c : Str} {ls : List Str} (hk : Kind hd key) (hn : '\n' ∉ name)
    (hd' : DataLines key ls) (h : Lacks hd c) :
    Place hd (add hd key name ls c) (c ++ (if endsWith ['\n'] c then [] else ['\n'])) (hd ++ '\n' :: entry key name ls) [] := by
  have hp : parts hd c = none := by unfold parts; rw [splitOnceStr_none.2 h]
  have e1 : add hd key name ls c = c ++ (if endsWith ['\n'] c then [] else ['\n']) ++ hd ++ ('\n' :: entry key name ls) := by
    rw [add, hp]; simp
  obtain ⟨k1, k2, ⟨x, k3⟩, -⟩ := kind_ok hk
  have hne : hd ≠ [] := by rw [k3]; simp
  -- what stands before ends a line or is empty
  obtain ⟨t, ht⟩ : ∃ t, c ++ (if endsWith ['\n'] c then [] else ['\n']) = t ++ ['\n'] ∧ Lacks hd t := by
    by_cases hends : endsWith ['\n'] c = true
    · have : ∃ t, c = t ++ ['\n'] := by
        unfold endsWith at hends
        obtain ⟨r, hr⟩ := startsWith_iff.1 hends
        refine ⟨r.reverse, ?_⟩
        have := congrArg List.reverse hr
        simpa using this
      obtain ⟨t, ht⟩ := this
      refine ⟨t, by rw [if_pos hends, List.append_nil, ht], ?_⟩
      intro a b e
      exact h a (b ++ ['\n']) (by rw [ht, e]; simp)
    · exact ⟨c, by rw [if_neg hends], h⟩
  refine ⟨by rw [e1]; simp, ⟨_, rfl⟩, ?_, ?_, Or.inl rfl⟩
  · intro a b e
    rw [e1, ht.1] at e
    rw [ht.1]
    rcases Nat.lt_or_ge a.length (t ++ ['\n']).length with hlt | hge
    · exfalso
      -- the occurrence starts in `t` or at its line end
      have e2 : t ++ '\n' :: (hd ++ '\n' :: entry key name ls) = a ++ (hd ++ b) := by
        have := e; simp only [List.append_assoc] at this; simpa using this
      rcases List.append_eq_append_iff.1 e2 with ⟨as, q1, q2⟩ | ⟨bs, q1, q2⟩
      · have : as = [] := by
          have := congrArg List.length q1
          simp at this hlt
          apply List.length_eq_zero_iff.1; omega
        rw [this, List.nil_append, k3] at q2
        exact absurd (List.cons.inj q2).1 (by decide)
      · -- t = a ++ bs, hd ++ b = bs ++ '\n' :: …
        rcases List.append_eq_append_iff.1 q2 with ⟨as, r1, r2⟩ | ⟨cs, r1, r2⟩
        · exact ht.2 a as (by rw [q1, r1]; simp)
        · cases cs with
          | nil => exact ht.2 a [] (by rw [q1, r1]; simp)
          | cons d cs =>
            have hd2 : '\n' = d := (List.cons.inj r2).1
            exact k1 (by rw [r1, ← hd2]; simp)
    · exact hge
  · rw [lacks_iff, splitOn_at, splitOn_of_not_mem k1, entry_pieces hk hn hd']
    exact entry_heads hk hd'

end Verif.Media
