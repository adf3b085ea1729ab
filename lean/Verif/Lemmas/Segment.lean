import Verif.Model.Segment
import Verif.Spec.Segment
import Verif.Lemmas.Override
import Verif.Lemmas.Transform
import Verif.Lemmas.StyleCmd
import Verif.Lemmas.Handlers
import Verif.Lemmas.Map
namespace Verif.Segment
open Verif Verif.Spec.Segment
open Verif.Spec.Ovr (Balanced Visible ModeAfter DrawTag Letter)

/-! ## Splitting -/

/-- All pieces, the empty ones included. -/
def cutL : Int → Str → Str → List Str
  | _, cur, [] => [cur]
  | d, cur, c :: s =>
    if c = '\\' ∧ d = 0 then cur :: cutL d [] s
    else cutL (if c = '(' then d + 1 else if c = ')' then d - 1 else d) (cur ++ [c]) s

theorem cutL_ne (d : Int) (cur s : Str) : ∃ p l, cutL d cur s = p :: l := by
  induction s generalizing d cur with
  | nil => exact ⟨_, _, rfl⟩
  | cons c s ih =>
    rw [cutL]
    split
    · exact ⟨_, _, rfl⟩
    · exact ih _ _

theorem splitLoop_eq (d : Int) (cur s : Str) : splitLoop d cur s = (cutL d cur s).filter (· ≠ []) := by
  induction s generalizing d cur with
  | nil =>
    rw [splitLoop, cutL]
    by_cases h : cur = [] <;> simp [h]
  | cons c s ih =>
    rw [splitLoop, cutL]
    by_cases h : c = '\\' ∧ d = 0
    · rw [if_pos h, if_pos h, ih]
      by_cases hc : cur = [] <;> simp [hc]
    · rw [if_neg h, if_neg h]
      by_cases h1 : c = '('
      · rw [if_pos h1, if_pos h1, ih]
      · rw [if_neg h1, if_neg h1]
        by_cases h2 : c = ')'
        · rw [if_pos h2, if_pos h2]
          split
          · next h3 =>
            obtain ⟨h3, h4, h5⟩ := h3
            cases s with
            | nil => simp at h5
            | cons e s' =>
              simp at h5
              subst h5
              have := ih (d - 1) []
              rw [this, h3, cutL, cutL, if_pos (by simp), if_pos (by simp)]
              simp
          · exact ih _ _
        · rw [if_neg h2, if_neg h2, ih]

theorem backslashed_cons (p : Str) {l : List Str} (h : l ≠ []) : backslashed (p :: l) = p ++ '\\' :: backslashed l := by
  cases l with
  | nil => exact absurd rfl h
  | cons q l => rw [backslashed]

theorem cutL_whole (d : Int) (cur s : Str) : backslashed (cutL d cur s) = cur ++ s := by
  induction s generalizing d cur with
  | nil => simp [cutL, backslashed]
  | cons c s ih =>
    rw [cutL]
    split
    · next h =>
      obtain ⟨p, l, e⟩ := cutL_ne d [] s
      rw [backslashed_cons _ (by rw [e]; simp), ih, h.1]
      simp
    · rw [ih]; simp

/-- Closed parentheses less opened ones. -/
def depth (s : Str) : Int := (s.count '(' : Int) - (s.count ')' : Int)

theorem level_iff (s : Str) : Level s ↔ depth s = 0 := by unfold Level depth; omega

theorem depth_append (a b : Str) : depth (a ++ b) = depth a + depth b := by
  unfold depth
  simp only [List.count_append]
  omega

theorem depth_snoc (a : Str) (c : Char) :
    depth (a ++ [c]) = (if c = '(' then depth a + 1 else if c = ')' then depth a - 1 else depth a) := by
  rw [depth_append]
  by_cases h1 : c = '('
  · subst h1; rw [if_pos rfl]; rfl
  · rw [if_neg h1]
    by_cases h2 : c = ')'
    · subst h2; rw [if_pos rfl]; show depth a + (-1) = _; omega
    · rw [if_neg h2]
      have : depth [c] = 0 := by unfold depth; simp [List.count_cons, h1, h2]
      omega

theorem cutL_cuts (s : Str) : ∀ (pre cur : Str), (∀ a b, cur = a ++ '\\' :: b → ¬ Level (pre ++ a)) →
    (∀ l p q r, cutL (depth (pre ++ cur)) cur s = l ++ p :: q :: r → Level (pre ++ backslashed (l ++ [p]))) ∧
    (∀ l p r a b, cutL (depth (pre ++ cur)) cur s = l ++ p :: r → p = a ++ '\\' :: b → ¬ Level (pre ++ backslashed (l ++ [a]))) := by
  induction s with
  | nil =>
    intro pre cur hc
    rw [cutL]
    constructor
    · intro l p q r e
      have := congrArg List.length e
      simp at this
      omega
    · intro l p r a b e hp
      cases l with
      | nil =>
        simp at e
        exact hc a b (by rw [e.1, hp])
      | cons x l =>
        have := congrArg List.length e
        simp at this
  | cons c s ih =>
    intro pre cur hc
    rw [cutL]
    by_cases h : c = '\\' ∧ depth (pre ++ cur) = 0
    · rw [if_pos h]
      have hd : depth (pre ++ cur) = depth ((pre ++ cur ++ ['\\']) ++ []) := by
        rw [List.append_nil, depth_snoc]; simp
      have ih := ih (pre ++ cur ++ ['\\']) [] (by intro a b e; simp at e)
      rw [← hd] at ih
      constructor
      · intro l p q r e
        cases l with
        | nil =>
          simp at e
          rw [← e.1]
          show Level (pre ++ cur)
          exact (level_iff _).2 h.2
        | cons x l =>
          simp at e
          have := ih.1 l p q r e.2
          rw [List.cons_append, backslashed_cons _ (by simp), ← e.1]
          simpa using this
      · intro l p r a b e hp
        cases l with
        | nil =>
          simp at e
          exact hc a b (by rw [e.1, hp])
        | cons x l =>
          simp at e
          have := ih.2 l p r a b e.2 hp
          rw [List.cons_append, backslashed_cons _ (by simp), ← e.1]
          simpa using this
    · rw [if_neg h]
      have hd : (if c = '(' then depth (pre ++ cur) + 1 else if c = ')' then depth (pre ++ cur) - 1 else depth (pre ++ cur)) =
          depth (pre ++ (cur ++ [c])) := by
        rw [← List.append_assoc, depth_snoc]
      rw [hd]
      apply ih
      intro a b e
      rcases List.append_eq_append_iff.1 e with ⟨y, e1, e2⟩ | ⟨y, e1, e2⟩
      · cases y with
        | nil =>
          simp at e2
          rw [e1]
          simp only [List.append_nil]
          intro hl
          exact h ⟨e2.1, (level_iff _).1 hl⟩
        | cons z y =>
          have := congrArg List.length e2
          simp at this
      · cases y with
        | nil =>
          simp at e2
          rw [List.append_nil] at e1
          rw [← e1]
          intro hl
          exact h ⟨e2.1.symm, (level_iff _).1 hl⟩
        | cons z y =>
          simp at e2
          exact hc a y (by rw [e1, e2.1])

theorem splitTags_cut (content : Str) : ∃ pieces, Cut content pieces ∧ splitTags content = pieces.filter (· ≠ []) := by
  refine ⟨cutL 0 [] content, ?_, splitLoop_eq 0 [] content⟩
  have := cutL_cuts content [] [] (by intro a b e; simp at e)
  exact ⟨by rw [cutL_whole]; rfl, this.1, this.2⟩

theorem cutL_plain (p : Str) (hp : '\\' ∉ p) : ∀ (d : Int) (cur s : Str), cutL d cur (p ++ s) = cutL (d + depth p) (cur ++ p) s := by
  induction p with
  | nil => intro d cur s; simp [depth]
  | cons c p ih =>
    intro d cur s
    have hc : c ≠ '\\' := fun e => hp (by rw [e]; simp)
    rw [List.cons_append, cutL, if_neg (fun h => hc h.1), ih (fun h => hp (List.mem_cons_of_mem _ h))]
    have e : depth (c :: p) = depth ([] ++ [c]) + depth p := by rw [← depth_append]; rfl
    rw [e, depth_snoc]
    simp only [List.append_assoc, List.singleton_append]
    congr 1
    have : depth ([] : Str) = 0 := rfl
    split
    · omega
    · split <;> omega

theorem splitTags_tagsText (ps : List Str) (h : ∀ p ∈ ps, Written p ∧ p ≠ []) : splitTags (tagsText ps) = ps := by
  have key : ∀ cur, cutL 0 cur (tagsText ps) = cur :: ps := by
    induction ps with
    | nil => intro cur; rfl
    | cons p l ih =>
      intro cur
      obtain ⟨⟨h1, h2⟩, h3⟩ := h p (by simp)
      rw [tagsText, List.cons_append, cutL, if_pos (by simp), cutL_plain p h1, (level_iff _).1 h2, Int.add_zero,
        ih (fun q hq => h q (List.mem_cons_of_mem _ hq))]
      rfl
  unfold splitTags
  rw [splitLoop_eq, key]
  simp only [ne_eq, not_true_eq_false, decide_false, Bool.false_eq_true, not_false_eq_true, List.filter_cons_of_neg]
  rw [List.filter_eq_self]
  intro p hp
  simpa using (h p hp).2

/-! ## Blocks -/

theorem readBlock_closed {d : Nat} {content : Str} (h : Braces d content) (s : Str) :
    readBlock d (content ++ '}' :: s) = some (content, s) := by
  induction h with
  | done => simp [readBlock]
  | opn d t _ ih => rw [List.cons_append, readBlock, if_pos rfl, ih]; rfl
  | cls d t hd _ ih =>
    rw [List.cons_append, readBlock, if_neg (by decide), if_pos rfl, if_neg (by omega), Nat.add_sub_cancel, ih]
    rfl
  | other d c t h1 h2 _ ih => rw [List.cons_append, readBlock, if_neg h1, if_neg h2, ih]; rfl

theorem readBlock_some (s : Str) : ∀ {d : Nat} {content r : Str}, 0 < d → readBlock d s = some (content, r) →
    s = content ++ '}' :: r ∧ Braces d content := by
  induction s with
  | nil => intro d content r _ h; simp [readBlock] at h
  | cons c s ih =>
    intro d content r hd h
    rw [readBlock] at h
    by_cases h1 : c = '{'
    · rw [if_pos h1] at h
      obtain ⟨p, hp, e⟩ := Option.map_eq_some_iff.1 h
      injection e with e1 e2
      obtain ⟨i1, i2⟩ := ih (d := d + 1) (by omega) (by rw [hp])
      subst e1 e2 h1
      exact ⟨by rw [i1]; simp, .opn _ _ i2⟩
    · rw [if_neg h1] at h
      by_cases h2 : c = '}'
      · rw [if_pos h2] at h
        by_cases h3 : d - 1 = 0
        · rw [if_pos h3] at h
          injection h with h
          injection h with e1 e2
          subst e1 e2 h2
          have : d = 1 := by omega
          subst this
          exact ⟨rfl, .done⟩
        · rw [if_neg h3] at h
          obtain ⟨p, hp, e⟩ := Option.map_eq_some_iff.1 h
          injection e with e1 e2
          obtain ⟨i1, i2⟩ := ih (d := d - 1) (by omega) (by rw [hp])
          subst e1 e2 h2
          refine ⟨by rw [i1]; simp, ?_⟩
          have := Braces.cls _ _ (by omega) i2
          rwa [Nat.sub_add_cancel hd] at this
      · rw [if_neg h2] at h
        obtain ⟨p, hp, e⟩ := Option.map_eq_some_iff.1 h
        injection e with e1 e2
        obtain ⟨i1, i2⟩ := ih hd (by rw [hp])
        subst e1 e2
        exact ⟨by rw [i1]; simp, .other _ _ _ h1 h2 i2⟩

theorem readBlock_none {s : Str} (h : readBlock 1 s = none) : NeverClosed s := by
  intro content r e hb
  rw [e, readBlock_closed hb] at h
  simp at h

/-! ## Segments -/

/-- `Raw` without the two endings that swallow what follows. -/
inductive Whole : Str → List Str → Str → Prop
  | nil : Whole [] [] []
  | block (content s bs t) (hb : Braces 1 content) (h : Whole s bs t) : Whole ('{' :: content ++ '}' :: s) (content :: bs) t
  | brk (c s bs t) (hc : c = 'n' ∨ c = 'N') (h : Whole s bs t) : Whole ('\\' :: c :: s) bs ('\n' :: t)
  | space (s bs t) (h : Whole s bs t) : Whole ('\\' :: 'h' :: s) bs ('\u00A0' :: t)
  | other (c s bs t) (hc : c ≠ 'n' ∧ c ≠ 'N' ∧ c ≠ 'h') (h : Whole s bs t) : Whole ('\\' :: c :: s) bs ('\\' :: c :: t)
  | char (c s bs t) (hc : c ≠ '{' ∧ c ≠ '\\') (h : Whole s bs t) : Whole (c :: s) bs (c :: t)

theorem Whole.then {x : Str} {bs : List Str} {t : Str} (h : Whole x bs t) {s : Str} {bs' : List Str} {t' : Str} (h' : Raw s bs' t') :
    Raw (x ++ s) (bs ++ bs') (t ++ t') := by
  induction h with
  | nil => exact h'
  | block content s bs t hb _ ih =>
    have := Raw.block content _ _ _ hb ih
    simpa using this
  | brk c s bs t hc _ ih => exact .brk _ _ _ _ hc ih
  | space s bs t _ ih => exact .space _ _ _ ih
  | other c s bs t hc _ ih => exact .other _ _ _ _ hc ih
  | char c s bs t hc _ ih => exact .char _ _ _ _ hc ih

theorem Whole.append {x : Str} {bs : List Str} {t : Str} (h : Whole x bs t) {s : Str} {bs' : List Str} {t' : Str}
    (h' : Whole s bs' t') : Whole (x ++ s) (bs ++ bs') (t ++ t') := by
  induction h with
  | nil => exact h'
  | block content s bs t hb _ ih =>
    have := Whole.block content _ _ _ hb ih
    simpa using this
  | brk c s bs t hc _ ih => exact .brk _ _ _ _ hc ih
  | space s bs t _ ih => exact .space _ _ _ ih
  | other c s bs t hc _ ih => exact .other _ _ _ _ hc ih
  | char c s bs t hc _ ih => exact .char _ _ _ _ hc ih

theorem Whole.raw {x : Str} {bs : List Str} {t : Str} (h : Whole x bs t) : Raw x bs t := by
  simpa using h.then .nil

/-- Every text has blocks and text around them. -/
theorem raw_total (k : Nat) : ∀ s : Str, s.length ≤ k → ∃ bs t, Raw s bs t := by
  induction k with
  | zero =>
    intro s h
    cases s with
    | nil => exact ⟨_, _, .nil⟩
    | cons c s => simp at h
  | succ k ih =>
    intro s h
    cases s with
    | nil => exact ⟨_, _, .nil⟩
    | cons c s =>
      simp only [List.length_cons] at h
      by_cases h1 : c = '{'
      · subst h1
        cases hr : readBlock 1 s with
        | none => exact ⟨_, _, .opened _ (readBlock_none hr)⟩
        | some p =>
          obtain ⟨content, r⟩ := p
          obtain ⟨e, hb⟩ := readBlock_some s (by omega) hr
          obtain ⟨bs, t, hr⟩ := ih r (by rw [e] at h; simp at h; omega)
          rw [e]
          exact ⟨_, _, .block _ _ _ _ hb hr⟩
      · by_cases h2 : c = '\\'
        · subst h2
          cases s with
          | nil => exact ⟨_, _, .lone⟩
          | cons d s =>
            obtain ⟨bs, t, hr⟩ := ih s (by simp at h; omega)
            by_cases h3 : d = 'n' ∨ d = 'N'
            · exact ⟨_, _, .brk _ _ _ _ h3 hr⟩
            · by_cases h4 : d = 'h'
              · subst h4
                exact ⟨_, _, .space _ _ _ hr⟩
              · exact ⟨_, _, .other _ _ _ _ ⟨fun e => h3 (.inl e), fun e => h3 (.inr e), h4⟩ hr⟩
        · obtain ⟨bs, t, hr⟩ := ih s (by omega)
          exact ⟨_, _, .char _ _ _ _ ⟨h1, h2⟩ hr⟩

theorem Whole.rest {text x s : Str} {bs : List Str} {t : Str} (h : Whole x bs t) (e : text = x ++ s) :
    ∃ bs' t', Raw text (bs ++ bs') (t ++ t') := by
  obtain ⟨bs', t', hr⟩ := raw_total s.length s (Nat.le_refl _)
  rw [e]
  exact ⟨bs', t', h.then hr⟩

theorem after_snoc {step : Str → Tags → Tags → Prop} {t u v : Tags} {bs : List Str} {b : Str} (h : After step t bs u) (hb : step b u v) :
    After step t (bs ++ [b]) v := by
  induction h with
  | none t => exact .more _ _ _ _ _ hb (.none _)
  | more t u v b bs h _ ih => exact .more _ _ _ _ _ h (ih hb)

theorem bytes_eq (s : Str) : bytes s = byteLen s := by
  induction s with
  | nil => rfl
  | cons c s ih =>
    rw [byteLen_cons, ← ih]
    simp [bytes]

/-- What one block does. -/
def Step (f32 : Str → Option Rat) (b : Str) (t u : Tags) : Prop := processBlock f32 b t = .ok u

/-- The text shown by an escape. -/
theorem escape_whole (d : Char) :
    Whole ['\\', d] [] (if d = 'N' ∨ d = 'n' then ['\n'] else if d = 'h' then ['\u00A0'] else ['\\', d]) := by
  by_cases h1 : d = 'N' ∨ d = 'n'
  · rw [if_pos h1]; exact .brk _ _ _ _ h1.symm .nil
  · rw [if_neg h1]
    by_cases h2 : d = 'h'
    · rw [if_pos h2, h2]; exact .space _ _ _ .nil
    · rw [if_neg h2]
      exact .other _ _ _ _ ⟨fun e => h1 (.inr e), fun e => h1 (.inl e), h2⟩ .nil

theorem segLoop_spec (f32 : Str → Option Rat) (text : Str) (t0 : Tags) (k : Nat) :
    ∀ (segs : List Seg) (cur : Str) (t : Tags) (s : Str) (out : List Seg) (x y : Str) (bs : List Str) (tx : Str),
      s.length ≤ k → text = x ++ y ++ s → Whole x bs tx → Whole y [] cur → After (Step f32) t0 bs t →
      (∀ g ∈ segs, Stretch (Step f32) t0 text g) →
      segLoop f32 (byteLen text) k segs cur (byteLen x) (byteLen (x ++ y)) t s = .ok out →
      (∀ g ∈ out, Stretch (Step f32) t0 text g) ∧
      ∃ bs' t', Raw s bs' t' ∧ out.flatMap (·.text) = segs.flatMap (·.text) ++ cur ++ t' := by
  have fin : ∀ (segs : List Seg) (cur : Str) (t : Tags) (out : List Seg) (x y : Str) (bs : List Str) (tx : Str),
      text = x ++ y → Whole x bs tx → Raw y [] cur → After (Step f32) t0 bs t → (∀ g ∈ segs, Stretch (Step f32) t0 text g) →
      (Outcome.ok (if cur ≠ [] ∨ segs = [] then segs ++ [⟨cur, byteLen x, byteLen text, t⟩] else segs) = Outcome.ok out) →
      (∀ g ∈ out, Stretch (Step f32) t0 text g) ∧ out.flatMap (·.text) = segs.flatMap (·.text) ++ cur := by
    intro segs cur t out x y bs tx he hx hy ha hs h
    injection h with h
    by_cases hc : cur ≠ [] ∨ segs = []
    · rw [if_pos hc] at h
      rw [← h]
      refine ⟨?_, by simp⟩
      intro g hg
      rcases List.mem_append.1 hg with hg | hg
      · exact hs g hg
      · rw [List.mem_singleton.1 hg]
        exact ⟨x, y, [], bs, tx, by simp [he], bytes_eq _, by rw [bytes_eq, ← he], hx.raw, hy, ha, hx.rest he⟩
    · rw [if_neg hc] at h
      rw [← h]
      have : cur = [] := Classical.not_not.1 (fun e => hc (.inl e))
      rw [this]
      exact ⟨hs, by simp⟩
  induction k with
  | zero =>
    intro segs cur t s out x y bs tx hk he hx hy ha hs h
    cases s with
    | cons c s => simp at hk
    | nil =>
      rw [segLoop] at h
      simp only [List.append_nil] at he
      obtain ⟨h1, h2⟩ := fin segs cur t out x y bs tx he hx hy.raw ha hs h
      exact ⟨h1, [], [], .nil, by rw [h2]; simp⟩
  | succ k ih =>
    intro segs cur t s out x y bs tx hk he hx hy ha hs h
    cases s with
    | nil =>
      rw [segLoop] at h
      simp only [List.append_nil] at he
      obtain ⟨h1, h2⟩ := fin segs cur t out x y bs tx he hx hy.raw ha hs h
      exact ⟨h1, [], [], .nil, by rw [h2]; simp⟩
    | cons c s =>
      simp only [segLoop] at h
      simp only [List.length_cons] at hk
      by_cases hb : c = '{'
      · subst hb
        simp only [if_pos] at h
        have hfl : ∀ g ∈ flush segs cur (byteLen x) (byteLen (x ++ y)) t, Stretch (Step f32) t0 text g := by
          unfold flush
          split
          · intro g hg
            rcases List.mem_append.1 hg with hg | hg
            · exact hs g hg
            · rw [List.mem_singleton.1 hg]
              exact ⟨x, y, _, bs, tx, he, bytes_eq _, bytes_eq _, hx.raw, hy.raw, ha, hx.rest (by rw [he, List.append_assoc])⟩
          · exact hs
        have hft : (flush segs cur (byteLen x) (byteLen (x ++ y)) t).flatMap (·.text) = segs.flatMap (·.text) ++ cur := by
          unfold flush
          split
          · simp
          · next hc => simp at hc; simp [hc]
        cases hr : readBlock 1 s with
        | none =>
          rw [hr] at h
          simp only at h
          have hraw : Raw ('{' :: s) [] [] := .opened _ (readBlock_none hr)
          by_cases hc : flush segs cur (byteLen x) (byteLen (x ++ y)) t = []
          · have hcur : cur = [] := by
              unfold flush at hc
              by_cases e : cur = []
              · exact e
              · rw [if_pos e] at hc; simp at hc
            have hsegs : segs = [] := by
              unfold flush at hc
              rw [if_neg (by simp [hcur])] at hc
              exact hc
            rw [if_pos hc] at h
            injection h with h
            rw [← h, hc]
            subst hcur hsegs
            refine ⟨?_, [], [], hraw, by simp⟩
            intro g hg
            rw [List.nil_append, List.mem_singleton] at hg
            rw [hg, if_neg (by simp)]
            refine ⟨x, y ++ '{' :: s, [], bs, tx, by simp [he], bytes_eq _, ?_, hx.raw, hy.then hraw, ha, hx.rest (by rw [he, List.append_assoc])⟩
            rw [bytes_eq, he]; simp
          · rw [if_neg hc] at h
            injection h with h
            rw [← h]
            exact ⟨hfl, [], [], hraw, by rw [hft]; simp⟩
        | some p =>
          obtain ⟨content, r⟩ := p
          rw [hr] at h
          simp only at h
          obtain ⟨es, hbr⟩ := readBlock_some s (by omega) hr
          cases hp : processBlock f32 content t with
          | err => rw [hp] at h; simp at h
          | panic => rw [hp] at h; simp at h
          | ok t' =>
            rw [hp] at h
            simp only at h
            have hx' : Whole (x ++ y ++ ('{' :: content ++ ['}'])) (bs ++ [content]) (tx ++ cur) := by
              have := (hx.append hy).append (Whole.block content [] [] [] hbr .nil)
              simpa using this
            have e1 : byteLen (x ++ y) + 1 + byteLen content + 1 = byteLen (x ++ y ++ ('{' :: content ++ ['}'])) := by
              have : byteLen ['}'] = 1 := by decide
              simp only [byteLen_append, List.cons_append, byteLen_cons, this]
              have : '{'.utf8Size = 1 := by decide
              omega
            rw [e1] at h
            have := ih (flush segs cur (byteLen x) (byteLen (x ++ y)) t) [] t' r out (x ++ y ++ ('{' :: content ++ ['}'])) []
              (bs ++ [content]) (tx ++ cur) (by have := congrArg List.length es; simp at this; omega)
              (by rw [he, es]; simp) hx' .nil (after_snoc ha hp) hfl (by simpa using h)
            obtain ⟨h1, bs', t1, h2, h3⟩ := this
            refine ⟨h1, content :: bs', t1, ?_, by rw [h3, hft]; simp⟩
            have := Raw.block content _ _ _ hbr h2
            rw [es]
            simpa using this
      · rw [if_neg hb] at h
        by_cases hbs : c = '\\'
        · subst hbs
          rw [if_pos rfl] at h
          cases s with
          | nil =>
            simp only at h
            have e : byteLen (x ++ y) + 1 = byteLen (x ++ (y ++ ['\\'])) := by
              have : byteLen ['\\'] = 1 := by decide
              simp only [byteLen_append, this]
              omega
            have h' : Outcome.ok (if cur ++ ['\\'] ≠ [] ∨ segs = [] then segs ++ [⟨cur ++ ['\\'], byteLen x, byteLen text, t⟩] else segs) =
                Outcome.ok out := by
              cases k with
              | zero => simpa only [segLoop] using h
              | succ k => simpa only [segLoop] using h
            have hraw : Raw (y ++ ['\\']) [] (cur ++ ['\\']) := by
              have := hy.then .lone
              simpa using this
            obtain ⟨h1, h2⟩ := fin segs _ t out x (y ++ ['\\']) bs tx (by rw [he]; simp) hx hraw ha hs h'
            exact ⟨h1, [], _, .lone, by rw [h2]; simp⟩
          | cons d s =>
            simp only at h
            have e : byteLen (x ++ y) + 1 + d.utf8Size = byteLen (x ++ (y ++ ['\\', d])) := by
              have : byteLen ['\\', d] = 1 + d.utf8Size := by
                have : byteLen ['\\'] = 1 := by decide
                have e : ['\\', d] = ['\\'] ++ [d] := rfl
                rw [e, byteLen_append, this]
                simp [byteLen]
              simp only [byteLen_append, this]
              omega
            rw [e] at h
            have hw := hy.append (escape_whole d)
            obtain ⟨h1, bs', t1, h2, h3⟩ := ih segs _ t s out x (y ++ ['\\', d]) bs tx (by simp at hk; omega) (by rw [he]; simp) hx
              (by simpa using hw) ha hs h
            refine ⟨h1, bs', _, ?_, by rw [h3, List.append_assoc, List.append_assoc, List.append_assoc]⟩
            have := (escape_whole d).then h2
            simpa using this
        · rw [if_neg hbs] at h
          have e : byteLen (x ++ y) + c.utf8Size = byteLen (x ++ (y ++ [c])) := by
            simp only [byteLen_append]
            have : byteLen [c] = c.utf8Size := by simp [byteLen]
            omega
          rw [e] at h
          have hw := hy.append (Whole.char c [] [] [] ⟨hb, hbs⟩ .nil)
          obtain ⟨h1, bs', t1, h2, h3⟩ := ih segs _ t s out x (y ++ [c]) bs tx (by omega) (by rw [he]; simp) hx
            (by simpa using hw) ha hs h
          exact ⟨h1, bs', c :: t1, .char _ _ _ _ ⟨hb, hbs⟩ h2, by rw [h3]; simp⟩

/-! ## `Raw` determines blocks and text -/

/-- The blocks and the text. -/
def rawF : Nat → Str → List Str × Str
  | 0, _ => ([], [])
  | _ + 1, [] => ([], [])
  | k + 1, c :: s =>
    if c = '{' then
      match readBlock 1 s with
      | none => ([], [])
      | some (content, r) => (content :: (rawF k r).1, (rawF k r).2)
    else if c = '\\' then
      match s.head? with
      | none => ([], ['\\'])
      | some d => ((rawF k (s.drop 1)).1,
          (if d = 'n' ∨ d = 'N' then ['\n'] else if d = 'h' then ['\u00A0'] else ['\\', d]) ++ (rawF k (s.drop 1)).2)
    else ((rawF k s).1, c :: (rawF k s).2)

theorem raw_rawF {s : Str} {bs : List Str} {t : Str} (h : Raw s bs t) : ∀ k, s.length ≤ k → rawF k s = (bs, t) := by
  induction h with
  | nil => intro k _; cases k <;> rfl
  | block content s bs t hb _ ih =>
    intro k hk
    cases k with
    | zero => simp at hk
    | succ k =>
      rw [List.cons_append, rawF, if_pos rfl, readBlock_closed hb]
      simp only
      rw [ih k (by simp at hk; omega)]
  | opened s hn =>
    intro k hk
    cases k with
    | zero => simp at hk
    | succ k =>
      rw [rawF, if_pos rfl]
      cases hr : readBlock 1 s with
      | none => rfl
      | some p =>
        obtain ⟨content, r⟩ := p
        obtain ⟨e, hb⟩ := readBlock_some s (by omega) hr
        exact absurd hb (hn _ _ e)
  | brk c s bs t hc _ ih =>
    intro k hk
    cases k with
    | zero => simp at hk
    | succ k =>
      rw [rawF, if_neg (by decide), if_pos rfl]
      simp only [List.head?_cons, List.drop_succ_cons, List.drop_zero]
      rw [ih k (by simp at hk; omega), if_pos hc]
      rfl
  | space s bs t _ ih =>
    intro k hk
    cases k with
    | zero => simp at hk
    | succ k =>
      rw [rawF, if_neg (by decide), if_pos rfl]
      simp only [List.head?_cons, List.drop_succ_cons, List.drop_zero]
      rw [ih k (by simp at hk; omega), if_neg (by decide), if_pos trivial]
      rfl
  | other c s bs t hc _ ih =>
    intro k hk
    cases k with
    | zero => simp at hk
    | succ k =>
      rw [rawF, if_neg (by decide), if_pos rfl]
      simp only [List.head?_cons, List.drop_succ_cons, List.drop_zero]
      rw [ih k (by simp at hk; omega), if_neg (by rintro (e | e); exact hc.1 e; exact hc.2.1 e), if_neg hc.2.2]
      rfl
  | lone =>
    intro k hk
    cases k with
    | zero => simp at hk
    | succ k => rfl
  | char c s bs t hc _ ih =>
    intro k hk
    cases k with
    | zero => simp at hk
    | succ k =>
      rw [rawF, if_neg hc.1, if_neg hc.2, ih k (by simp at hk; omega)]

theorem raw_unique {s : Str} {bs bs' : List Str} {t t' : Str} (h : Raw s bs t) (h' : Raw s bs' t') : bs = bs' ∧ t = t' := by
  have h1 := raw_rawF h s.length (Nat.le_refl _)
  have h2 := raw_rawF h' s.length (Nat.le_refl _)
  rw [h1] at h2
  injection h2 with h2 h3
  exact ⟨h2, h3⟩

/-! ## Visible text without drawings -/

theorem balanced_braces {d : Nat} {s : Str} (h : Balanced d s) : Braces d s := by
  induction h with
  | done => exact .done
  | opn d s _ _ ih => exact .opn _ _ ih
  | cls d s hd _ ih => exact .cls _ _ hd ih
  | other d c s h1 h2 _ ih => exact .other _ _ _ h1 h2 ih

theorem drawTag_extend {content a : Str} {n : Int} (h : DrawTag content a n) (s : Str) :
    ∃ a', DrawTag ('{' :: content ++ '}' :: s) a' n := by
  obtain ⟨num, rest, e, hn, hr⟩ := h
  refine ⟨'{' :: a, num, rest ++ '}' :: s, by rw [e]; simp, hn, ?_⟩
  intro c hc
  cases rest with
  | nil =>
    simp at hc
    subst hc
    rintro (h | h)
    · revert h; unfold Verif.Spec.Ovr.Digit; decide
    · revert h; decide
  | cons d r => exact hr c (by simpa using hc)

theorem visible_raw {m : Bool} {s t : Str} (h : Visible m s t) (hm : m = false) (hd : ∀ a n, ¬ DrawTag s a n) :
    ∃ bs, Raw s bs t := by
  induction h with
  | nil m => exact ⟨[], .nil⟩
  | block m m' content s t hb hmode _ ih =>
    have hm' : m' = false := by
      rcases hmode with ⟨_, e⟩ | ⟨a, n, hdt, _⟩
      · rw [e, hm]
      · obtain ⟨a', h'⟩ := drawTag_extend hdt s
        exact absurd h' (hd a' n)
    obtain ⟨bs, ih⟩ := ih hm' (fun a n h' => by
      have := h'.append ('{' :: content ++ ['}'])
      exact hd _ _ (by simpa using this))
    exact ⟨_, .block _ _ _ _ (balanced_braces hb) ih⟩
  | brk m c s t hc _ ih =>
    subst hm
    obtain ⟨bs, ih⟩ := ih rfl (fun a n h' => hd _ _ (h'.append ['\\', c]))
    exact ⟨bs, .brk _ _ _ _ hc ih⟩
  | space m s t _ ih =>
    subst hm
    obtain ⟨bs, ih⟩ := ih rfl (fun a n h' => hd _ _ (h'.append ['\\', 'h']))
    exact ⟨bs, .space _ _ _ ih⟩
  | other m c s t hc _ ih =>
    subst hm
    obtain ⟨bs, ih⟩ := ih rfl (fun a n h' => hd _ _ (h'.append ['\\', c]))
    exact ⟨bs, .other _ _ _ _ hc ih⟩
  | char m c s t hc _ ih =>
    subst hm
    obtain ⟨bs, ih⟩ := ih rfl (fun a n h' => hd _ _ (h'.append [c]))
    exact ⟨bs, .char _ _ _ _ hc ih⟩

/-! ## What the tags do -/

theorem get_read (t : Tags) (f : Field) : valueOf t f = t.vals.get f := by
  unfold valueOf
  induction t.vals with
  | nil => rfl
  | cons p l ih =>
    obtain ⟨k, v⟩ := p
    rw [Map.get, List.find?_cons]
    by_cases h : k = f
    · simp [h]
    · simp only [h, decide_false, if_false]; exact ih

theorem read_setOpt (t : Tags) (f g : Field) (v : Val) :
    valueOf (t.setOpt f (some v)) g = if g = f then some v else valueOf t g := by
  rw [get_read, get_read]
  exact Map.get_insert _ _ _ _

theorem setOpt_transforms (t : Tags) (f : Field) (v : Option Val) : (t.setOpt f v).transforms = t.transforms := by
  cases v <;> rfl

theorem extract_letters {n a : Str} (hn : n ≠ []) (hl : ∀ c ∈ n, Override.isAlpha c = true)
    (ha : ∀ c, a.head? = some c → ¬ Letter c) (hf : stripPrefix "fn".toList n = none) : extract (n ++ a) = .ok (n, a) := by
  have hsp : ∀ c r, stripPrefix "fn".toList (n ++ a) ≠ some (c :: r) := by
    intro c r hs
    have e := stripPrefix_iff.1 hs
    cases n with
    | nil => exact hn rfl
    | cons x n =>
      cases n with
      | nil =>
        cases a with
        | nil => simp at e
        | cons y a =>
          simp at e
          refine ha y rfl ?_
          rw [e.2.1]
          unfold Letter; decide
      | cons y n =>
        simp at e
        rw [e.1, e.2.1] at hf
        simp [stripPrefix] at hf
  cases n with
  | nil => exact absurd rfl hn
  | cons x n =>
    have hx := hl x (by simp)
    have hdig : Override.isDig x = false := by
      cases hd : Override.isDig x with
      | false => rfl
      | true =>
        have h1 := (Override.isDig_iff x).1 hd
        have h2 := (Override.isAlpha_iff x).1 hx
        unfold Verif.Spec.Ovr.Digit at h1
        unfold Letter at h2
        omega
    have hall : ((x :: n) ++ a).takeWhile Override.isAlpha = x :: n ∧ ((x :: n) ++ a).dropWhile Override.isAlpha = a := by
      constructor
      · rw [List.takeWhile_append_of_pos hl]
        cases a with
        | nil => simp
        | cons y a =>
          have : Override.isAlpha y = false := by
            cases hy : Override.isAlpha y with
            | false => rfl
            | true => exact absurd ((Override.isAlpha_iff y).1 hy) (ha y rfl)
          rw [List.takeWhile_cons, this]; simp
      · rw [List.dropWhile_append_of_pos hl]
        cases a with
        | nil => simp
        | cons y a =>
          have : Override.isAlpha y = false := by
            cases hy : Override.isAlpha y with
            | false => rfl
            | true => exact absurd ((Override.isAlpha_iff y).1 hy) (ha y rfl)
          rw [List.dropWhile_cons, this]; simp
    unfold extract
    split
    · next c r hs => exact absurd hs (hsp c r)
    · simp only [List.cons_append] at hall ⊢
      rw [hdig, hall.1, hall.2]
      rfl

end Verif.Segment
