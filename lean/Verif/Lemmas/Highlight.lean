import Verif.Spec.Highlight
import Verif.Lemmas.StrX
import Verif.Lemmas.Map
import Verif.Lemmas.SrtDoc
import Verif.Lemmas.Handlers
import Verif.Lemmas.InfoCmd
/-! Lemmas for syntax highlighting (C102). -/
namespace Verif.Highlight
open Verif Verif.Spec.Highlight
open Verif.Spec.EventCmd (White)
open Verif.Spec.InfoCmd (Stripped)

/-- All bytes of the pieces. -/
def total (l : List Piece) : Nat := (l.map fun p => bytes p.text).sum

theorem bytes_eq (s : Str) : bytes s = byteLen s := rfl

@[simp] theorem total_nil : total [] = 0 := rfl
@[simp] theorem total_cons (p : Piece) (l : List Piece) : total (p :: l) = bytes p.text + total l := by simp [total]
@[simp] theorem total_append (l m : List Piece) : total (l ++ m) = total l + total m := by simp [total]

theorem place_append (n : Nat) (l m : List Piece) : place n (l ++ m) = place n l ++ place (n + total l) m := by
  induction l generalizing n with
  | nil => simp [place]
  | cons p l ih =>
    rw [List.cons_append, place, place, ih, List.append_assoc, total_cons, Nat.add_assoc]

theorem place_gap (n : Nat) (s : Str) (l : List Piece) : place n (gap s :: l) = place (n + byteLen s) l := rfl
theorem place_mark (n : Nat) (k : Kind) (s : Str) (l : List Piece) :
    place n (mark k s :: l) = ⟨n, n + byteLen s, k, none⟩ :: place (n + byteLen s) l := rfl
theorem place_named (n : Nat) (k : Kind) (name s : Str) (l : List Piece) :
    place n (named k name s :: l) = ⟨n, n + byteLen s, k, some name⟩ :: place (n + byteLen s) l := rfl
theorem place_nil (n : Nat) : place n [] = [] := rfl
@[simp] theorem gap_text (s : Str) : (gap s).text = s := rfl
@[simp] theorem mark_text (k : Kind) (s : Str) : (mark k s).text = s := rfl
@[simp] theorem named_text (k : Kind) (n s : Str) : (named k n s).text = s := rfl

/-- The text of the pieces. -/
def textOf (l : List Piece) : Str := l.flatMap fun p => p.text

theorem total_textOf (l : List Piece) : total l = byteLen (textOf l) := by
  induction l with
  | nil => rfl
  | cons p l ih => rw [total_cons, ih]; simp [textOf, bytes_eq]

@[simp] theorem textOf_nil : textOf [] = [] := rfl
@[simp] theorem textOf_cons (p : Piece) (l : List Piece) : textOf (p :: l) = p.text ++ textOf l := by simp [textOf]
@[simp] theorem textOf_append (l m : List Piece) : textOf (l ++ m) = textOf l ++ textOf m := by simp [textOf]

/-! ## Blocks -/

theorem slashAt_append (a s : Str) : slashAt (a ++ s) (byteLen a) = true ↔ s.head? = some '\\' := by
  unfold slashAt
  rw [dropBytes_append]
  cases s with
  | nil => simp
  | cons c s =>
    by_cases h : c = '\\'
    · subst h; simp
    · simp [h]

theorem skip_fuel (content : Str) (k j pos : Nat) (hk : byteLen content ≤ pos + k) (hj : byteLen content ≤ pos + j) :
    skip content k pos = skip content j pos := by
  induction k generalizing j pos with
  | zero =>
    cases j with
    | zero => rfl
    | succ j => rw [skip, skip, if_neg (by omega)]
  | succ k ih =>
    cases j with
    | zero => rw [skip, skip, if_neg (by omega)]
    | succ j =>
      rw [skip, skip]
      by_cases h : pos < byteLen content ∧ slashAt content pos = true
      · rw [if_pos h, if_pos h]
        exact ih j (pos + 1) (by omega) (by omega)
      · rw [if_neg h, if_neg h]

theorem skip_stop {a s : Str} (h : s.head? ≠ some '\\') : skip (a ++ s) (byteLen (a ++ s)) (byteLen a) = byteLen a := by
  cases hb : byteLen (a ++ s) with
  | zero => rfl
  | succ n =>
    rw [skip, if_neg]
    rintro ⟨_, h2⟩
    exact h ((slashAt_append a s).1 h2)

theorem skip_slash (a s : Str) : skip (a ++ '\\' :: s) (byteLen (a ++ '\\' :: s)) (byteLen a) =
    skip (a ++ '\\' :: s) (byteLen (a ++ '\\' :: s)) (byteLen a + 1) := by
  have h1 : ('\\' : Char).utf8Size = 1 := rfl
  have hlt : byteLen a < byteLen (a ++ '\\' :: s) := by rw [byteLen_append, byteLen_cons]; omega
  rw [skip_fuel _ _ (byteLen (a ++ '\\' :: s) + 1) (byteLen a) (by omega) (by omega), skip,
    if_pos ⟨hlt, (slashAt_append a _).2 rfl⟩]

theorem partsLoop_slash (alnum : Char → Bool) (a s : Str) (start : Nat) (ps : List Str) :
    partsLoop alnum (a ++ '\\' :: s) start (byteLen a) ps = partsLoop alnum (a ++ '\\' :: s) start (byteLen a + 1) ps := by
  cases ps with
  | nil => rfl
  | cons p ps => rw [partsLoop, partsLoop, skip_slash]

theorem takeWhile_split (q : Char → Bool) (s : Str) : ∃ a b, s = a ++ b ∧ s.takeWhile q = a ∧ (∀ c ∈ a, q c = true) ∧
    (∀ c, b.head? = some c → q c = false) := by
  refine ⟨s.takeWhile q, s.dropWhile q, (List.takeWhile_append_dropWhile).symm, rfl, ?_, ?_⟩
  · intro c hc
    exact List.all_eq_true.1 List.all_takeWhile c hc
  · intro c hc
    have := List.head?_dropWhile_not q s
    rw [hc] at this
    simpa using this

/-- The tokens of a part are its pieces. -/
theorem part (alnum : Char → Bool) (s : Str) : ∃ l, Part alnum s l ∧ textOf l = s ∧ ∀ pos, partToks alnum s pos = place pos l := by
  obtain ⟨a, b, e, ht, ha, hb⟩ := takeWhile_split alnum s
  by_cases h : a = []
  · subst h
    rw [List.nil_append] at e
    subst e
    refine ⟨[gap s], .other hb, by simp, fun pos => ?_⟩
    unfold partToks
    rw [ht]
    rfl
  · cases b with
    | nil =>
      rw [List.append_nil] at e
      subst e
      refine ⟨[named .tag s s], .tag h ha, by simp, fun pos => ?_⟩
      unfold partToks
      rw [ht]
      dsimp only
      rw [if_neg h, if_neg (by omega), place_named, place_nil]
    | cons c b =>
      subst e
      refine ⟨[named .tag a a, mark .param (c :: b)], .withParam h ha (hb c rfl), by simp, fun pos => ?_⟩
      unfold partToks
      rw [ht]
      dsimp only
      have := utf8Size_pos c
      rw [if_neg h, if_pos (by simp; omega), place_named, place_mark, place_nil, byteLen_append, Nat.add_assoc]

theorem block_aux (alnum : Char → Bool) (n : Nat) : ∀ s : Str, s.length = n → ∃ l, Block alnum s l ∧ textOf l = s ∧
    ∀ a start, partsLoop alnum (a ++ s) start (byteLen a) ((splitOn '\\' s).filter (fun x => x ≠ [])) = place (start + byteLen a) l := by
  induction n using Nat.strongRecOn with
  | _ n ih =>
    intro s hs
    cases h : splitOnce '\\' s with
    | none =>
      have hn := splitOnce_eq_none h
      obtain ⟨l, hl, ht, hp⟩ := part alnum s
      refine ⟨l, .last hn hl, ht, fun a start => ?_⟩
      rw [splitOn_of_not_mem hn]
      by_cases he : s = []
      · subst he
        have : partToks alnum [] (start + byteLen a) = [] := rfl
        rw [← hp, this]
        rfl
      · have : ([s].filter fun x => decide (x ≠ [])) = [s] := by simp [he]
        rw [this, partsLoop, skip_stop (fun e => hn (List.mem_of_head? e))]
        have hlt : byteLen a < byteLen (a ++ s) := by
          cases s with
          | nil => exact absurd rfl he
          | cons c s => have := utf8Size_pos c; simp; omega
        rw [if_neg (by omega), partsLoop, List.append_nil, hp]
    | some tu =>
      obtain ⟨t, u⟩ := tu
      obtain ⟨e, hn⟩ := splitOnce_some h
      subst e
      obtain ⟨l, hl, ht, hp⟩ := part alnum t
      obtain ⟨m, hm, htm, hpm⟩ := ih u.length (by rw [← hs]; simp; omega) u rfl
      refine ⟨l ++ gap ['\\'] :: m, .more hn hl hm, by simp [ht, htm], fun a start => ?_⟩
      rw [splitOn_append_sep _ hn, place_append, place_gap]
      have h1 : byteLen ['\\'] = 1 := rfl
      rw [h1]
      by_cases he : t = []
      · subst he
        have hl0 : place (start + byteLen a) l = [] := by
          rw [← hp]; rfl
        have ht0 : total l = 0 := by rw [total_textOf, ht]; rfl
        rw [hl0, ht0, List.nil_append, List.nil_append, Nat.add_zero]
        have : (([] : Str) :: splitOn '\\' u).filter (fun x => decide (x ≠ [])) = (splitOn '\\' u).filter (fun x => decide (x ≠ [])) := by simp
        rw [this, partsLoop_slash]
        have := hpm (a ++ ['\\']) start
        rw [List.append_assoc, byteLen_append, h1] at this
        rw [← Nat.add_assoc] at this
        exact this
      · have : (t :: splitOn '\\' u).filter (fun x => decide (x ≠ [])) = t :: (splitOn '\\' u).filter (fun x => decide (x ≠ [])) := by simp [he]
        rw [this, partsLoop]
        have hh : (t ++ '\\' :: u).head? ≠ some '\\' := by
          cases t with
          | nil => exact absurd rfl he
          | cons c t => intro e; exact hn (by simp at e; simp [e])
        rw [skip_stop hh]
        have hlt : byteLen a < byteLen (a ++ (t ++ '\\' :: u)) := by
          rw [byteLen_append, byteLen_append, byteLen_cons]
          have := utf8Size_pos '\\'
          omega
        rw [if_neg (by omega), hp]
        congr 1
        have := hpm (a ++ t ++ ['\\']) start
        rw [List.append_assoc, List.append_assoc, byteLen_append, byteLen_append, h1] at this
        rw [total_textOf, ht]
        rw [← Nat.add_assoc, ← Nat.add_assoc] at this
        exact this

theorem block (alnum : Char → Bool) (s : Str) : ∃ l, Block alnum s l ∧ textOf l = s ∧ ∀ start, tagContent alnum s start = place start l := by
  obtain ⟨l, h, ht, hp⟩ := block_aux alnum s.length s rfl
  refine ⟨l, h, ht, fun start => ?_⟩
  have := hp [] start
  exact this

/-! ## Texts -/

theorem text (alnum : Char → Bool) (n : Nat) : ∀ s : Str, s.length = n → ∃ l, Text alnum s l ∧ textOf l = s ∧
    ∀ k pos, s.length ≤ k → textTags alnum k pos s = place pos l := by
  induction n using Nat.strongRecOn with
  | _ n ih =>
    intro s hs
    cases s with
    | nil => exact ⟨[], .done, rfl, fun k pos _ => by cases k <;> rfl⟩
    | cons c s =>
      by_cases hc : c = '{'
      · subst hc
        cases h : splitOnce '}' s with
        | none =>
          have hn := splitOnce_eq_none h
          refine ⟨_, .unclosed hn, by simp, fun k pos hk => ?_⟩
          cases k with
          | zero => simp at hk
          | succ k => rw [textTags, if_pos rfl, h]; rfl
        | some tu =>
          obtain ⟨t, u⟩ := tu
          obtain ⟨e, hn⟩ := splitOnce_some h
          subst e
          obtain ⟨l, hl, ht, hp⟩ := block alnum t
          obtain ⟨m, hm, htm, hpm⟩ := ih u.length (by rw [← hs]; simp; omega) u rfl
          refine ⟨_, .block hn hl hm, by simp [ht, htm], fun k pos hk => ?_⟩
          cases k with
          | zero => simp at hk
          | succ k =>
            have h1 : byteLen ['{'] = 1 := rfl
            have h2 : byteLen ['}'] = 1 := rfl
            have ha : (mark Kind.tag ['{'] :: l ++ mark Kind.tag ['}'] :: m) = mark Kind.tag ['{'] :: (l ++ mark Kind.tag ['}'] :: m) := rfl
            rw [ha, place_mark, place_append, place_mark, total_textOf, ht, h1, h2]
            rw [textTags, if_pos rfl, h]
            dsimp only
            rw [hp, hpm k _ (by simp at hk; omega)]
            rfl
      · obtain ⟨a, b, e, ht, ha, hb⟩ := takeWhile_split (fun x => x != '{') (c :: s)
        have hd : (c :: s).dropWhile (fun x => x != '{') = b := by
          have := List.takeWhile_append_dropWhile (p := fun x => x != '{') (l := c :: s)
          rw [ht] at this
          rw [e] at this
          rw [e]
          exact List.append_cancel_left this
        have hane : a ≠ [] := by
          rw [← ht]
          simp [hc]
        obtain ⟨m, hm, htm, hpm⟩ := ih b.length (by
          have : (c :: s).length = a.length + b.length := by rw [e, List.length_append]
          have : 0 < a.length := List.length_pos_iff.2 hane
          omega) b rfl
        refine ⟨mark .text a :: m, ?_, ?_, ?_⟩
        · rw [e]
          refine .plain hane (fun hx => ?_) (fun x hx => ?_) hm
          · have := ha _ hx
            simp at this
          · have := hb x hx
            simpa using this
        · simp [htm, e]
        · intro k pos hk
          cases k with
          | zero => simp at hk
          | succ k =>
            rw [textTags, if_neg hc]
            dsimp only
            rw [ht, hd, place_mark, hpm k _ (by
              have : (c :: s).length = a.length + b.length := by rw [e, List.length_append]
              have : 0 < a.length := List.length_pos_iff.2 hane
              omega)]

/-! ## Events -/

theorem cut_none {n : Nat} {s : Str} (h : cut n s = none) : s.count ',' < n := by
  induction s generalizing n with
  | nil =>
    cases n with
    | zero => cases h
    | succ n => simp
  | cons c s ih =>
    cases n with
    | zero => cases h
    | succ n =>
      rw [cut, Option.map_eq_none_iff] at h
      have := ih h
      by_cases hc : c = ','
      · subst hc
        rw [if_pos rfl] at this
        rw [List.count_cons_self]
        omega
      · rw [if_neg hc] at this
        rw [List.count_cons_of_ne (by simpa using hc)]
        exact this

theorem cut_succ {n : Nat} {s pre text : Str} (h : cut (n + 1) s = some (pre, text)) :
    ∃ f s' pre', ',' ∉ f ∧ s = f ++ ',' :: s' ∧ pre = f ++ ',' :: pre' ∧ cut n s' = some (pre', text) := by
  induction s generalizing pre with
  | nil => cases h
  | cons c s ih =>
    rw [cut, Option.map_eq_some_iff] at h
    obtain ⟨⟨p, q⟩, h1, h2⟩ := h
    cases h2
    by_cases hc : c = ','
    · subst hc
      rw [if_pos rfl] at h1
      exact ⟨[], s, p, by simp, rfl, rfl, h1⟩
    · rw [if_neg hc] at h1
      obtain ⟨f, s', pre', hf, e1, e2, h3⟩ := ih h1
      refine ⟨c :: f, s', pre', ?_, by rw [e1]; rfl, by simp only; rw [e2]; rfl, h3⟩
      intro hm
      rcases List.mem_cons.1 hm with e | hm
      · exact hc e.symm
      · exact hf hm

theorem stripped_trim (s : Str) : Stripped s (trim s) := InfoCmd.stripped_trim s

theorem eventField (i : Nat) (s : Str) : ∃ p, EventField i s p ∧ p.text = s ∧
    ∀ pos l, place pos (p :: l) = fieldTok i s pos :: place (pos + byteLen s) l := by
  by_cases h : i = 1 ∨ i = 2
  · refine ⟨_, .time h, rfl, fun pos l => ?_⟩
    rw [place_mark, fieldTok, if_pos h]
  · by_cases h3 : i = 3
    · subst h3
      refine ⟨_, .style (stripped_trim s), rfl, fun pos l => ?_⟩
      rw [place_named, fieldTok, if_neg (by omega), if_pos rfl]
    · refine ⟨_, .other (by omega) (by omega) h3, rfl, fun pos l => ?_⟩
      rw [place_mark, fieldTok, if_neg h, if_neg h3]

theorem eventFields (n i : Nat) (hi : i + n = 9) : ∀ {s pre text : Str}, cut n s = some (pre, text) → s = pre ++ text ∧
    ∃ l, EventFields i pre l ∧ textOf l = pre ∧
      ∀ pos, fieldToks i pos (splitOn ',' pre) = place pos (l ++ [mark .fieldValue []]) := by
  induction n generalizing i with
  | zero =>
    intro s pre text h
    have : ([], s) = (pre, text) := by simpa [cut] using h
    cases this
    have : i = 9 := by omega
    subst this
    exact ⟨rfl, [], .done, rfl, fun pos => rfl⟩
  | succ n ih =>
    intro s pre text h
    obtain ⟨f, s', pre', hf, e1, e2, h3⟩ := cut_succ h
    obtain ⟨e3, l, hl, ht, hp⟩ := ih (i + 1) (by omega) h3
    subst e1 e2 e3
    obtain ⟨p, h1, h2, h4⟩ := eventField i f
    refine ⟨by simp, p :: gap [','] :: l, .field hf h1 hl, by simp [h2, ht], fun pos => ?_⟩
    rw [splitOn_append_sep _ hf, fieldToks, List.cons_append, List.cons_append, h4, place_gap, hp]
    rfl

theorem event (alnum : Char → Bool) (c : Config) (type s : Str) : ∃ l, Event alnum c.tags s l ∧ textOf l = s ∧
    ∀ pos, eventToks alnum c type s pos = place pos (named .eventType type (type ++ [':']) :: l) := by
  have hb : byteLen (type ++ [':']) = byteLen type + 1 := by rw [byteLen_append]; rfl
  cases h : cut 9 s with
  | none =>
    refine ⟨[gap s], .short (cut_none h), by simp, fun pos => ?_⟩
    rw [eventToks, h, place_named, hb]
    rfl
  | some pt =>
    obtain ⟨pre, tx⟩ := pt
    obtain ⟨e, l, hl, ht, hp⟩ := eventFields 9 0 rfl h
    have e9 : l ++ mark .fieldValue [] :: ([] : List Piece) = l ++ [mark .fieldValue []] := rfl
    cases hc : c.tags with
    | false =>
      refine ⟨l ++ [mark .fieldValue [], mark .text tx], ?_, ?_, fun pos => ?_⟩
      · rw [e]; exact .plain rfl hl
      · simp [ht, e]
      · have : l ++ [mark .fieldValue [], mark .text tx] = (l ++ [mark .fieldValue []]) ++ [mark .text tx] := by simp
        rw [eventToks, h, place_named, hb, this, place_append, ← Nat.add_assoc, ← hp]
        dsimp only
        rw [hc, if_neg (by simp), place_mark, place_nil]
        have ht2 : total (l ++ [mark .fieldValue []]) = byteLen pre := by rw [total_textOf]; simp [ht]
        rw [ht2, e, byteLen_append, Nat.add_assoc _ (byteLen pre)]
    | true =>
      obtain ⟨m, hm, htm, hpm⟩ := text alnum tx.length tx rfl
      refine ⟨l ++ mark .fieldValue [] :: m, ?_, ?_, fun pos => ?_⟩
      · rw [e]; exact .tagged rfl hl hm
      · simp [ht, e, htm]
      · have : l ++ mark .fieldValue [] :: m = (l ++ [mark .fieldValue []]) ++ m := by simp
        rw [eventToks, h, place_named, hb, this, place_append, ← Nat.add_assoc, ← hp]
        dsimp only
        rw [hc, if_pos rfl, hpm _ _ (Nat.le_refl _)]
        have ht2 : total (l ++ [mark .fieldValue []]) = byteLen pre := by rw [total_textOf]; simp [ht]
        rw [ht2]

/-! ## Styles -/

theorem styleRest (n : Nat) : ∀ s : Str, s.length = n → ∃ l, StyleRest (',' :: s) l ∧ textOf l = ',' :: s ∧
    ∀ i pos, styleFields (i + 1) (pos + 1) (splitOn ',' s) = place pos l := by
  induction n using Nat.strongRecOn with
  | _ n ih =>
    intro s hs
    cases h : splitOnce ',' s with
    | none =>
      have hn := splitOnce_eq_none h
      refine ⟨[gap [','], mark .fieldValue s], ?_, by simp, fun i pos => ?_⟩
      · have := StyleRest.field (t := []) hn (by simp) .done
        simpa using this
      · rw [splitOn_of_not_mem hn, styleFields, styleFields, place_gap, place_mark, place_nil, styleTok, if_neg (by omega)]
        rfl
    | some tu =>
      obtain ⟨t, u⟩ := tu
      obtain ⟨e, hn⟩ := splitOnce_some h
      subst e
      obtain ⟨m, hm, htm, hpm⟩ := ih u.length (by rw [← hs]; simp; omega) u rfl
      refine ⟨gap [','] :: mark .fieldValue t :: m, ?_, by simp [htm], fun i pos => ?_⟩
      · exact StyleRest.field hn (by simp) hm
      · rw [splitOn_append_sep _ hn, styleFields, place_gap, place_mark, ← hpm (i + 1), styleTok, if_neg (by omega)]
        rfl

theorem style (s : Str) : ∃ l, Style s l ∧ textOf l = s ∧ ∀ pos, styleFields 0 pos (splitOn ',' s) = place pos l := by
  cases h : splitOnce ',' s with
  | none =>
    have hn := splitOnce_eq_none h
    refine ⟨[named .styleName (trim s) s], ?_, by simp, fun pos => ?_⟩
    · have := Style.mk (t := []) hn (by simp) (stripped_trim s) .done
      simpa using this
    · rw [splitOn_of_not_mem hn, styleFields, styleFields, place_named, place_nil, styleTok, if_pos rfl]
  | some tu =>
    obtain ⟨t, u⟩ := tu
    obtain ⟨e, hn⟩ := splitOnce_some h
    subst e
    obtain ⟨m, hm, htm, hpm⟩ := styleRest u.length u rfl
    refine ⟨named .styleName (trim t) t :: m, .mk hn (by simp) (stripped_trim t) hm, by simp [htm], fun pos => ?_⟩
    rw [splitOn_append_sep _ hn, styleFields, place_named, ← hpm 0, styleTok, if_pos rfl]

/-! ## Lines -/

theorem trimStart_nil {v : Str} : trimStart v = [] ↔ ∀ c ∈ v, White c := by
  unfold trimStart
  constructor
  · intro h c hc
    have h2 := List.takeWhile_append_dropWhile (p := isWs) (l := v)
    rw [h, List.append_nil] at h2
    rw [← h2] at hc
    exact (SrtDoc.white_iff c).1 (List.all_eq_true.1 List.all_takeWhile c hc)
  · intro h
    induction v with
    | nil => rfl
    | cons c v ih =>
      rw [List.dropWhile_cons, if_pos ((SrtDoc.white_iff c).2 (h c List.mem_cons_self))]
      exact ih fun x hx => h x (List.mem_cons_of_mem _ hx)

/-- What stands on a line, up to the order of pieces. -/
def SameSize (l : List Piece) (s : Str) : Prop := total l = byteLen s

theorem info (alnum : Char → Bool) (tags : Bool) {sec : Str} (hs : sec ∈ ["Script Info".toList, "Aegisub Project Garbage".toList])
    (line : Str) : ∃ l, InSection alnum tags sec line l ∧ textOf l = line ∧ ∀ pos, infoToks line pos = place pos l := by
  unfold infoToks
  cases h : splitOnce ':' line with
  | none =>
    exact ⟨[gap line], .infoOther hs (splitOnce_eq_none h), by simp, fun pos => rfl⟩
  | some kv =>
    obtain ⟨k, v⟩ := kv
    obtain ⟨e, hn⟩ := splitOnce_some h
    subst e
    have hb : byteLen (k ++ [':']) = byteLen k + 1 := by rw [byteLen_append]; rfl
    by_cases hw : ∀ c ∈ v, White c
    · refine ⟨_, .infoEmpty hs hn hw, by simp, fun pos => ?_⟩
      dsimp only
      rw [if_pos (trimStart_nil.2 hw), place_named, place_gap, place_nil, hb]
      rfl
    · refine ⟨_, .info hs hn (by
        apply Classical.byContradiction
        intro h
        exact hw fun c hc => Classical.byContradiction fun h2 => h ⟨c, hc, h2⟩), by simp, fun pos => ?_⟩
      dsimp only
      have h1 : (':' : Char).utf8Size = 1 := rfl
      rw [if_neg (fun e => hw (trimStart_nil.1 e)), place_named, place_mark, place_nil, hb, byteLen_append, byteLen_cons, h1]
      congr 2
      simp only [Tok.mk.injEq, and_true]
      omega

theorem format (alnum : Char → Bool) (tags : Bool) {sec : Str}
    (hs : sec ∈ ["V4+ Styles".toList, "V4 Styles".toList, "Events".toList]) {line : Str} (h : startsWith "Format:".toList line = true) :
    ∃ l, InSection alnum tags sec line l ∧ textOf l = line ∧ ∀ pos, formatToks line pos = place pos l := by
  obtain ⟨t, rfl⟩ := startsWith_iff.1 h
  refine ⟨_, .format hs, by simp, fun pos => ?_⟩
  have h7 : byteLen "Format:".toList = 7 := by decide
  unfold formatToks
  rw [place_named, place_mark, place_nil, byteLen_append, h7, Nat.add_assoc]

theorem styleLine (alnum : Char → Bool) (tags : Bool) {sec : Str} (hs : sec ∈ ["V4+ Styles".toList, "V4 Styles".toList]) (rest : Str) :
    ∃ l, InSection alnum tags sec ("Style:".toList ++ rest) l ∧ total l = byteLen ("Style:".toList ++ rest) ∧
      ((∀ c, rest.head? = some c → ¬ White c) → textOf l = "Style:".toList ++ rest) ∧ ∀ pos, styleToks rest pos = place pos l := by
  obtain ⟨a, b, e, ht, ha, hb⟩ := takeWhile_split isWs rest
  have hd : trimStart rest = b := by
    unfold trimStart
    have := List.takeWhile_append_dropWhile (p := isWs) (l := rest)
    rw [ht] at this
    rw [e] at this
    rw [e]
    exact List.append_cancel_left this
  obtain ⟨l, hl, htx, hp⟩ := style b
  have h6 : byteLen "Style:".toList = 6 := by decide
  have ha' : ∀ c ∈ a, White c := fun c hc => (SrtDoc.white_iff c).1 (ha c hc)
  refine ⟨named .fieldName "Style".toList "Style:".toList :: l ++ [gap a], ?_, ?_, ?_, fun pos => ?_⟩
  · rw [e, ← List.append_assoc]
    refine .style hs ha' (fun c hc hw => ?_) hl
    have := hb c hc
    rw [(SrtDoc.white_iff c).2 hw] at this
    cases this
  · rw [total_textOf]
    rw [e]
    simp only [textOf_append, textOf_cons, textOf_nil, htx, named_text, gap_text, byteLen_append, byteLen_nil]
    omega
  · intro hno
    have : a = [] := by
      cases a with
      | nil => rfl
      | cons c a => exact absurd (ha' c List.mem_cons_self) (hno c (by rw [e]; rfl))
    subst this
    simp [htx, e]
  · rw [List.cons_append, place_named, place_append, place_gap, place_nil, List.append_nil, h6, ← hp, styleToks, hd]

/-- The pieces of a line in a section. -/
theorem section_ (alnum : Char → Bool) (c : Config) (sec line : Str) : ∃ l, InSection alnum c.tags sec line l ∧
    total l = byteLen line ∧ ((∀ s c, White c → line ≠ "Style:".toList ++ c :: s) → textOf l = line) ∧
    ∀ pos, inSection alnum c (some sec) line pos = place pos l := by
  have full : ∀ {l : List Piece}, textOf l = line → total l = byteLen line := by
    intro l h
    rw [total_textOf, h]
  have wrap : ∀ {f : Nat → List Tok}, (∃ l, InSection alnum c.tags sec line l ∧ textOf l = line ∧ ∀ pos, f pos = place pos l) →
      ∃ l, InSection alnum c.tags sec line l ∧ total l = byteLen line ∧
        ((∀ s c, White c → line ≠ "Style:".toList ++ c :: s) → textOf l = line) ∧ ∀ pos, f pos = place pos l := by
    rintro f ⟨l, h1, h2, h3⟩
    exact ⟨l, h1, full h2, fun _ => h2, h3⟩
  by_cases h1 : sec ∈ ["Script Info".toList, "Aegisub Project Garbage".toList]
  · simp only [inSection, if_pos h1]
    exact wrap (info alnum c.tags h1 line)
  · by_cases h2 : sec ∈ ["V4+ Styles".toList, "V4 Styles".toList]
    · have hm : sec ∈ ["V4+ Styles".toList, "V4 Styles".toList, "Events".toList] := by
        rcases List.mem_cons.1 h2 with e | h
        · rw [e]; exact List.mem_cons_self
        · exact List.mem_cons_of_mem _ (by rw [List.mem_singleton.1 h]; exact List.mem_cons_self)
      by_cases hf : startsWith "Format:".toList line = true
      · simp only [inSection, if_neg h1, if_pos h2, if_pos hf]
        exact wrap (format alnum c.tags hm hf)
      · cases hst : stripPrefix "Style:".toList line with
        | none =>
          simp only [inSection, if_neg h1, if_pos h2, if_neg hf, hst]
          refine wrap ⟨[gap line], .styleOther h2 (fun s e => hf (startsWith_iff.2 ⟨s, e⟩)) (stripPrefix_eq_none.1 hst), by simp,
            fun pos => rfl⟩
        | some rest =>
          have e := stripPrefix_iff.1 hst
          simp only [inSection, if_neg h1, if_pos h2, if_neg hf, hst]
          obtain ⟨l, g1, g2, g3, g4⟩ := styleLine alnum c.tags h2 rest
          rw [e]
          refine ⟨l, g1, g2, fun hno => g3 fun x hx hw => ?_, g4⟩
          cases rest with
          | nil => cases hx
          | cons y r =>
            cases hx
            exact hno r x hw rfl
    · by_cases h3 : sec = "Events".toList
      · subst h3
        by_cases hf : startsWith "Format:".toList line = true
        · simp only [inSection, if_neg h1, if_neg h2, if_pos, if_pos hf]
          exact wrap (format alnum c.tags (by decide) hf)
        · cases hd : stripPrefix "Dialogue:".toList line with
          | some rest =>
            have e := stripPrefix_iff.1 hd
            simp only [inSection, if_neg h1, if_neg h2, if_pos, if_neg hf, hd]
            obtain ⟨l, g1, g2, g3⟩ := event alnum c "Dialogue".toList rest
            refine wrap ⟨_, ?_, ?_, g3⟩
            · rw [e]; exact .event (type := "Dialogue".toList) (by decide) g1
            · rw [e]; simp [g2]
          | none =>
            cases hcm : stripPrefix "Comment:".toList line with
            | some rest =>
              have e := stripPrefix_iff.1 hcm
              simp only [inSection, if_neg h1, if_neg h2, if_pos, if_neg hf, hd, hcm]
              obtain ⟨l, g1, g2, g3⟩ := event alnum c "Comment".toList rest
              refine wrap ⟨_, ?_, ?_, g3⟩
              · rw [e]; exact .event (type := "Comment".toList) (by decide) g1
              · rw [e]; simp [g2]
            | none =>
              simp only [inSection, if_neg h1, if_neg h2, if_pos, if_neg hf, hd, hcm]
              exact wrap ⟨[gap line], .eventOther (fun s e => hf (startsWith_iff.2 ⟨s, e⟩)) (stripPrefix_eq_none.1 hd)
                (stripPrefix_eq_none.1 hcm), by simp, fun pos => rfl⟩
      · simp only [inSection, if_neg h1, if_neg h2, if_neg h3]
        refine wrap ⟨[mark .text line], .other ?_, by simp, fun pos => rfl⟩
        intro hm
        rcases List.mem_cons.1 hm with e | hm
        · exact h1 (by rw [e]; exact List.mem_cons_self)
        rcases List.mem_cons.1 hm with e | hm
        · exact h1 (by rw [e]; exact List.mem_cons_of_mem _ List.mem_cons_self)
        rcases List.mem_cons.1 hm with e | hm
        · exact h2 (by rw [e]; exact List.mem_cons_self)
        rcases List.mem_cons.1 hm with e | hm
        · exact h2 (by rw [e]; exact List.mem_cons_of_mem _ List.mem_cons_self)
        exact h3 (List.mem_singleton.1 hm)

theorem header_some {line name : Str} (h : header line = some name) : line = '[' :: name ++ [']'] := by
  unfold header at h
  split at h
  · rename_i s
    by_cases hl : s.getLast? = some ']'
    · rw [if_pos hl] at h
      cases h
      rw [List.cons_append, List.cons_inj_right]
      obtain ⟨ys, rfl⟩ := List.getLast?_eq_some_iff.1 hl
      simp
    · rw [if_neg hl] at h
      cases h
  · cases h

theorem header_none {line : Str} (h : header line = none) : ¬ ∃ name, line = '[' :: name ++ [']'] := by
  rintro ⟨name, rfl⟩
  rw [List.cons_append, header, if_pos (by simp)] at h
  cases h

/-- The pieces of a line. -/
theorem line (alnum : Char → Bool) (c : Config) (sec : Option Str) (s : Str) : ∃ l, 
    Line alnum c.tags sec s l (lineToks alnum c sec s 0).2 ∧ (∀ pos, (lineToks alnum c sec s pos).2 = (lineToks alnum c sec s 0).2) ∧
    total l = byteLen s ∧ ((∀ t c, White c → s ≠ "Style:".toList ++ c :: t) → textOf l = s) ∧
    ∀ pos, (lineToks alnum c sec s pos).1 = place pos l := by
  unfold lineToks
  cases h : header s with
  | some name =>
    have e := header_some h
    subst e
    exact ⟨_, .header, fun _ => rfl, by simp [bytes_eq], fun _ => by simp, fun pos => rfl⟩
  | none =>
    by_cases hc : s.head? = some ';'
    · simp only [if_pos hc]
      cases s with
      | nil => cases hc
      | cons x s =>
        cases hc
        exact ⟨_, .comment, fun _ => trivial, by simp [bytes_eq], fun _ => by simp, fun pos => rfl⟩
    · simp only [if_neg hc]
      have hs : ¬ Special s := by
        rintro (h1 | ⟨t, rfl⟩)
        · exact header_none h h1
        · exact hc rfl
      cases sec with
      | none => exact ⟨[gap s], .before hs, fun _ => trivial, by simp [bytes_eq], fun _ => by simp, fun pos => rfl⟩
      | some name =>
        obtain ⟨l, h1, h2, h3, h4⟩ := section_ alnum c name s
        exact ⟨l, .inside hs h1, fun _ => trivial, h2, h3, h4⟩

/-! ## Documents -/

theorem docLoop_acc (alnum : Char → Bool) {c : Config} (hc : c.maxTokens = 0) (acc : List Tok) (sec : Option Str) (pos : Nat) (ls : List Str) :
    docLoop alnum c acc sec pos ls = acc ++ docLoop alnum c [] sec pos ls := by
  induction ls generalizing acc sec pos with
  | nil => simp [docLoop]
  | cons l ls ih =>
    rw [docLoop, docLoop]
    rw [if_neg (by omega), if_neg (by omega), ih, ih (acc := [] ++ _)]
    simp

theorem split_line (s : Str) : (s = [] ∨ (s ≠ [] ∧ '\n' ∉ s)) ∨ ∃ a b, s = a ++ '\n' :: b ∧ '\n' ∉ a := by
  cases h : splitOnce '\n' s with
  | none =>
    have := splitOnce_eq_none h
    by_cases e : s = []
    · exact .inl (.inl e)
    · exact .inl (.inr ⟨e, this⟩)
  | some p =>
    obtain ⟨a, b⟩ := p
    obtain ⟨e, hn⟩ := splitOnce_some h
    exact .inr ⟨a, b, e, hn⟩

theorem doc (alnum : Char → Bool) (c : Config) (hc : c.maxTokens = 0) (n : Nat) : ∀ s : Str, s.length = n → '\r' ∉ s → ∀ sec,
    ∃ l, Doc alnum c.tags sec s l ∧ ((∀ a t c, White c → s ≠ a ++ "Style:".toList ++ c :: t) → textOf l = s) ∧
    ∀ pos, docLoop alnum c [] sec pos (lines s) = place pos l := by
  induction n using Nat.strongRecOn with
  | _ n ih =>
    intro s hs hr sec
    rcases split_line s with (rfl | ⟨hne, hn⟩) | ⟨a, b, rfl, hn⟩
    · exact ⟨[], .done, fun _ => rfl, fun pos => rfl⟩
    · obtain ⟨l, h1, h2, h3, h4, h5⟩ := line alnum c sec s
      refine ⟨l, .last hne hn h1, fun h => h4 fun t x hw e => h [] t x hw e, fun pos => ?_⟩
      rw [lines_last hn hne, docLoop]
      rw [if_neg (by omega), docLoop, List.nil_append, h5]
    · obtain ⟨l, h1, h2, h3, h4, h5⟩ := line alnum c sec a
      obtain ⟨m, g1, g2, g3⟩ := ih b.length (by rw [← hs]; simp; omega) b rfl (fun h => hr (by simp [h]))
        (lineToks alnum c sec a 0).2
      refine ⟨l ++ gap ['\n'] :: m, .more hn h1 g1, fun h => ?_, fun pos => ?_⟩
      · rw [textOf_append, textOf_cons, h4 (fun t x hw e => h [] (t ++ '\n' :: b) x hw (by rw [e]; simp)),
          g2 (fun a' t x hw e => h (a ++ '\n' :: a') t x hw (by rw [e]; simp))]
        rfl
      · have hcr : a.getLast? ≠ some '\r' := fun e => hr (by simp [List.mem_of_getLast? e])
        rw [lines_append a hn b, stripCr_of hcr, docLoop]
        rw [if_neg (by omega), docLoop_acc alnum hc, List.nil_append, h5, h2, g3, place_append, place_gap, h3]
        rfl

/-- With a limit the result is a beginning. -/
theorem docLoop_limit (alnum : Char → Bool) (c : Config) (acc : List Tok) (sec : Option Str) (pos : Nat) (ls : List Str) :
    ∃ rest, docLoop alnum { c with maxTokens := 0 } acc sec pos ls = docLoop alnum c acc sec pos ls ++ rest ∧
      (rest = [] ∨ c.maxTokens ≤ (docLoop alnum c acc sec pos ls).length) := by
  have hl : ∀ sec s pos, lineToks alnum { c with maxTokens := 0 } sec s pos = lineToks alnum c sec s pos := fun _ _ _ => rfl
  induction ls generalizing acc sec pos with
  | nil => exact ⟨[], by simp [docLoop], .inl rfl⟩
  | cons l ls ih =>
    rw [docLoop, docLoop]
    dsimp only
    rw [if_neg (by omega), hl]
    by_cases h : c.maxTokens > 0 ∧ (acc ++ (lineToks alnum c sec l pos).1).length ≥ c.maxTokens
    · rw [if_pos h]
      refine ⟨_, docLoop_acc alnum rfl _ _ _ _, .inr h.2⟩
    · rw [if_neg h]
      exact ih _ _ _

end Verif.Highlight
