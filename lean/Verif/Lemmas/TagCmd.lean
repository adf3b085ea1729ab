import Verif.Model.TagCmd
import Verif.Spec.TagCmd
import Verif.Lemmas.Override
import Verif.Lemmas.Doc
import Verif.Lemmas.Incremental
import Verif.Lemmas.Handlers
import Verif.Lemmas.StyleCmd
namespace Verif.TagCmd
open Verif
open Verif.Override
open Verif.Spec.Ovr (Name Letter Closes)
open Verif.Spec.TagCmd
open Verif.Spec.Tokenizer (Balanced)

theorem readBlock_balanced {x : Str} (h : Balanced x) : ∀ (d : Nat) (s : Str),
    readBlock (d + 1) (x ++ s) = (x ++ (readBlock (d + 1) s).1, (readBlock (d + 1) s).2) := by
  induction h with
  | nil => intro d s; rfl
  | char h1 h2 _ ih =>
    intro d s
    rw [List.cons_append, readBlock, if_neg h1, if_neg h2, ih]
    rfl
  | @block x y _ _ ih1 ih2 =>
    intro d s
    have e : '{' :: x ++ '}' :: y ++ s = '{' :: (x ++ ('}' :: (y ++ s))) := by simp
    rw [e, readBlock, if_pos rfl, ih1 (d + 1)]
    rw [show readBlock (d + 1 + 1) ('}' :: (y ++ s)) = ('}' :: (readBlock (d + 1) (y ++ s)).1, (readBlock (d + 1) (y ++ s)).2) from by
      rw [readBlock, if_neg (by decide), if_pos rfl, if_neg (by omega)]; rfl]
    rw [ih2 d]
    simp

theorem readBlock_closed {x : Str} (h : Balanced x) (s : Str) : readBlock 1 (x ++ '}' :: s) = (x, true, s) := by
  rw [readBlock_balanced h 0]
  rw [show readBlock (0 + 1) ('}' :: s) = ([], true, s) from by rw [readBlock, if_neg (by decide), if_pos rfl, if_pos (by omega)]]
  simp

theorem scanName_go : ∀ (t acc next : Str), acc ≠ [] → (∀ c ∈ t, Letter c) →
    (∀ p q, t = p ++ q → p ≠ [] → q ≠ [] → acc ++ p ≠ ['r'] ∧ acc ++ p ≠ ['f', 'n']) →
    (t ≠ [] ∧ (acc ++ t = ['r'] ∨ acc ++ t = ['f', 'n']) ∨ ∀ c, next.head? = some c → ¬ Letter c) →
    scanName acc (t ++ next) = (acc ++ t, next)
  | [], acc, next, h1, _, _, h4 => by
    have h4 : ∀ c, next.head? = some c → ¬ Letter c := by
      rcases h4 with ⟨h, _⟩ | h
      · exact absurd rfl h
      · exact h
    rw [List.nil_append, List.append_nil]
    cases next with
    | nil => rfl
    | cons c s =>
      have h5 : ¬ isAlpha c = true := fun h => h4 c rfl ((isAlpha_iff c).1 h)
      rw [scanName, if_neg (by simp [h1]), if_neg h5]
  | c :: t, acc, next, h1, h2, h3, h4 => by
    have hc : isAlpha c = true := (isAlpha_iff c).2 (h2 c (by simp))
    rw [List.cons_append, scanName, if_neg (by simp [h1]), if_pos hc]
    by_cases hr : acc ++ [c] = "r".toList ∨ acc ++ [c] = "fn".toList
    · rw [if_pos hr]
      have ht : t = [] := by
        by_cases ht : t = []
        · exact ht
        · have := h3 [c] t rfl (by simp) ht
          rcases hr with h | h
          · exact absurd h this.1
          · exact absurd h this.2
      rw [ht]; rfl
    · rw [if_neg hr]
      rw [scanName_go t (acc ++ [c]) next (by simp) (fun x hx => h2 x (by simp [hx])) ?_ ?_]
      · simp
      · intro p q e hp hq
        have := h3 (c :: p) q (by rw [e]; rfl) (by simp) hq
        simpa using this
      · rcases h4 with ⟨_, h⟩ | h
        · by_cases ht : t = []
          · subst ht
            exact absurd h hr
          · exact .inl ⟨ht, by simpa using h⟩
        · exact .inr h

theorem scanName_tag {n next : Str} (hn : Name n) (hr : n.head? = some 'r' → n = ['r']) (hf : ['f', 'n'] <+: n → n = ['f', 'n'])
    (hs : n = ['r'] ∨ n = ['f', 'n'] ∨ ∀ c, next.head? = some c → ¬ Letter c) : scanName [] (n ++ next) = (n, next) := by
  obtain ⟨c, t, rfl, hc, ht⟩ := hn
  have hcond : ∀ p q, t = p ++ q → p ≠ [] → q ≠ [] → [c] ++ p ≠ ['r'] ∧ [c] ++ p ≠ ['f', 'n'] := by
    intro p q e hp hq
    refine ⟨fun h => ?_, fun h => ?_⟩
    · rw [List.singleton_append] at h
      injection h with _ h; exact hp h
    · rw [List.singleton_append] at h
      have : c :: t = ['f', 'n'] ++ q := by rw [e, ← List.cons_append, h]
      have h2 := hf ⟨q, this.symm⟩
      rw [h2] at this
      have := congrArg List.length this
      simp at this
      exact hq this
  have hfin : c ≠ 'r' → (t ≠ [] ∧ ([c] ++ t = ['r'] ∨ [c] ++ t = ['f', 'n']) ∨ ∀ c, next.head? = some c → ¬ Letter c) := by
    intro hcr
    rcases hs with h | h | h
    · injection h with h _; exact absurd h hcr
    · left; injection h with h1 h2; rw [h1, h2]; simp
    · exact .inr h
  rw [List.cons_append, scanName]
  by_cases hd : isDig c = true
  · rw [if_pos (by simp [hd])]
    rw [scanName_go t [c] next (by simp) ht hcond (hfin (by rintro rfl; cases hd))]
    rfl
  · rw [if_neg (by simp [hd])]
    have hl : isAlpha c = true := by
      rcases hc with h | h
      · exact (isAlpha_iff c).2 h
      · exact absurd ((isDig_iff c).2 h) hd
    rw [if_pos hl]
    by_cases hcr : c = 'r'
    · have := hr (by rw [hcr]; rfl)
      have ht0 : t = [] := by injection this
      rw [if_pos (.inl (by rw [hcr]; rfl)), ht0]; rfl
    · rw [if_neg (by
        rintro (h | h)
        · rw [List.nil_append] at h
          have h : [c] = ['r'] := h
          injection h with h _; exact hcr h
        · have := congrArg List.length h
          simp at this)]
      rw [List.nil_append, scanName_go t [c] next (by simp) ht hcond (hfin hcr)]
      rfl

theorem scanParen_closes {d : Nat} {a : Str} (h : Closes d a) (s : Str) : scanParen d (a ++ s) = (a, s) := by
  induction h with
  | last => simp [scanParen]
  | opn d a _ ih =>
    rw [List.cons_append, scanParen, if_pos rfl]
    rw [show ((d : Int) + 1) = ((d + 1 : Nat) : Int) by omega, ih]
  | cls d a hd _ ih =>
    rw [List.cons_append, scanParen, if_neg (by decide), if_pos rfl, if_neg (by omega)]
    rw [show (((d + 1 : Nat) : Int) - 1) = ((d : Nat) : Int) by omega, ih]
  | other d c a h1 h2 _ ih =>
    rw [List.cons_append, scanParen, if_neg h1, if_neg h2, ih]

theorem scanArgs_tag {n a next : Str} (h : (n = ['t'] ∧ a.head? = some '(' ∧ Closes 0 a) ∨ ((n ≠ ['t'] ∨ a.head? ≠ some '(') ∧ '\\' ∉ a))
    (hn : next = [] ∨ next.head? = some '\\') : scanArgs n (a ++ next) = (a, next) := by
  have plain : '\\' ∉ a → ((a ++ next).takeWhile (· ≠ '\\'), (a ++ next).dropWhile (· ≠ '\\')) = (a, next) := by
    intro ha
    have h1 : ∀ x ∈ a, decide (x ≠ '\\') = true := by
      intro x hx
      apply decide_eq_true
      rintro rfl
      exact ha hx
    rw [List.takeWhile_append_of_pos h1, List.dropWhile_append_of_pos h1]
    rcases hn with rfl | hn
    · simp
    · cases next with
      | nil => simp
      | cons c s =>
        injection hn with hn
        subst hn
        simp
  rcases h with ⟨rfl, h1, h2⟩ | ⟨h1, h2⟩
  · cases a with
    | nil => cases h1
    | cons c a =>
      injection h1 with h1
      subst h1
      rw [List.cons_append, scanArgs, if_pos (by decide), ← List.cons_append]
      exact scanParen_closes h2 next
  · cases a with
    | nil =>
      rcases hn with rfl | hn
      · rfl
      · cases next with
        | nil => cases hn
        | cons c s =>
          injection hn with hn
          subst hn
          exact plain h2
    | cons c a =>
      by_cases hc : c = '('
      · subst hc
        rw [List.cons_append, scanArgs, if_neg (by
          intro e
          rcases h1 with h1 | h1
          · exact h1 e
          · exact h1 rfl), ← List.cons_append]
        exact plain h2
      · rw [List.cons_append, scanArgs]
        · exact plain h2
        · rintro x e
          injection e with e _
          exact hc e

/-- The tags with their places. -/
def tagsAt : Nat → List (Str × Str) → List Tag
  | _, [] => []
  | p, t :: l => ⟨t.1, t.2, p⟩ :: tagsAt (p + 1 + byteLen t.1 + byteLen t.2) l

theorem content_cons (t : Str × Str) (l : List (Str × Str)) : content (t :: l) = '\\' :: (t.1 ++ (t.2 ++ content l)) := by
  simp [content, tagText]

theorem content_head (l : List (Str × Str)) : content l = [] ∨ (content l).head? = some '\\' := by
  cases l with
  | nil => exact .inl rfl
  | cons t l => right; rw [content_cons]; rfl

theorem blockLoop_tags : ∀ (ts : List (Str × Str)) (k pos : Nat), (content ts).length ≤ k → Tags ts →
    blockLoop k pos (content ts) = .ok ⟨tagsAt pos ts, []⟩
  | [], k, pos, _, _ => by cases k <;> rfl
  | (n, a) :: l, k, pos, hk, ht => by
    obtain ⟨h1, h2, h3, h4, h5, h6⟩ := ht
    rw [content_cons] at hk ⊢
    simp only at hk ⊢
    cases k with
    | zero => simp at hk
    | succ k =>
      simp only [List.length_cons, List.length_append] at hk
      have hne : n ≠ [] := by
        obtain ⟨c, t, e, _⟩ := h1
        rw [e]; simp
      rw [blockLoop, if_pos rfl]
      simp only [scanName_tag h1 h2 h3 h4, ne_eq, hne, not_false_eq_true, if_true, scanArgs_tag h5 (content_head l), Name.not_blank h1, if_false]
      rw [blockLoop_tags l k _ (by omega) h6]
      rfl

theorem parse_tags {ts : List (Str × Str)} (h : Tags ts) (pos : Nat) : parseBlock (content ts) pos = .ok ⟨tagsAt pos ts, []⟩ :=
  blockLoop_tags ts _ pos (Nat.le_refl _) h

theorem write_eq (n a : Str) (p : Nat) : write ⟨n, a, p⟩ = tagText (n, a) := rfl

/-! ### Removal -/

theorem keepTags_eq (q : Str) : ∀ (ts : List (Str × Str)) (p : Nat),
    keepTags ('\\' :: q) (tagsAt p ts) = .ok (content (ts.filter (fun t => !(q.isPrefixOf t.1))))
  | [], p => rfl
  | t :: l, p => by
    have hp : pastFirst ('\\' :: q) = some q := by
      unfold pastFirst
      rw [dropBytes, if_pos (by decide)]
      have : 0 + 1 - '\\'.utf8Size = 0 := by decide
      rw [this]
      cases q <;> rfl
    rw [tagsAt, keepTags, hp]
    simp only [keepTags_eq q l]
    by_cases h : q.isPrefixOf t.1 = true
    · simp [h]
    · simp only [Bool.not_eq_true] at h
      simp [h, content, write_eq]

theorem removeLoop_all {keep : Bool} {s t : Str} (h : Stripped keep s t) : ∀ k, s.length ≤ k → removeLoop none (!keep) k s = .ok t := by
  induction h with
  | nil => intro k _; cases k <;> rfl
  | char hc _ ih =>
    intro k hk
    cases k with
    | zero => simp at hk
    | succ k =>
      rw [removeLoop, if_neg hc, ih k (by simpa using hk)]
      rfl
  | @block x s t hx _ ih =>
    intro k hk
    cases k with
    | zero => simp at hk
    | succ k =>
      rw [List.cons_append, removeLoop, if_pos rfl, readBlock_closed hx]
      simp only [cleanBlock]
      rw [ih k (by simp at hk; omega)]
      cases keep <;> simp [before]

theorem removeLoop_some {q : Str} {keep : Bool} {s t : Str} (h : Removed q keep s t) :
    ∀ k, s.length ≤ k → removeLoop (some ('\\' :: q)) (!keep) k s = .ok t := by
  induction h with
  | nil => intro k _; cases k <;> rfl
  | char hc _ ih =>
    intro k hk
    cases k with
    | zero => simp at hk
    | succ k =>
      rw [removeLoop, if_neg hc, ih k (by simpa using hk)]
      rfl
  | @block ts s t hb _ ih =>
    intro k hk
    cases k with
    | zero => simp at hk
    | succ k =>
      rw [List.cons_append, removeLoop, if_pos rfl, readBlock_closed hb.braces]
      simp only [cleanBlock, parse_tags hb.tags, keepTags_eq]
      rw [ih k (by simp at hk; omega)]
      have e : ∀ l : List (Str × Str), content l = [] ↔ l = [] := by
        intro l
        cases l with
        | nil => simp [content]
        | cons t l => rw [content_cons]; simp
      unfold written before
      by_cases hf : ts.filter (fun t => !(q.isPrefixOf t.1)) = []
      · rw [hf]
        cases keep <;> simp [content]
      · have hf' : content (ts.filter (fun t => !(q.isPrefixOf t.1))) ≠ [] := fun x => hf ((e _).1 x)
        simp only [hf', hf, ne_eq, not_false_eq_true, true_or, if_true, false_and, if_false]

/-! ### Replacement -/

theorem swapTags_all {f r : Str} {ts : List (Str × Str)} {y : Str} (h : Swapped f r ts y) : ∀ (n p : Nat),
    (swapTags f r true n (tagsAt p ts)).1 = y := by
  induction h with
  | nil => intro n p; rfl
  | @hit t ts y suffix ht _ ih =>
    intro n p
    rw [tagsAt, swapTags, if_pos ⟨by rw [write_eq, List.isPrefixOf_iff_prefix]; exact ⟨suffix, ht.symm⟩, .inl rfl⟩]
    simp only [write_eq, ht, List.drop_left, ih]
  | miss ht _ ih =>
    intro n p
    rw [tagsAt, swapTags, if_neg (by
      rintro ⟨h, _⟩
      exact ht (List.isPrefixOf_iff_prefix.1 h))]
    simp only [ih]
    rfl

theorem replaceLoop_all {f r : Str} {s t : Str} (h : Replaced f r s t) : ∀ k n, s.length ≤ k → replaceLoop f r true k n s = .ok t := by
  induction h with
  | nil => intro k n _; cases k <;> rfl
  | char hc _ ih =>
    intro k n hk
    cases k with
    | zero => simp at hk
    | succ k =>
      rw [replaceLoop, if_neg hc, ih k n (by simpa using hk)]
      rfl
  | @block ts s t y hb hy _ ih =>
    intro k n hk
    cases k with
    | zero => simp at hk
    | succ k =>
      rw [List.cons_append, replaceLoop, if_pos rfl, readBlock_closed hb.braces, if_pos rfl]
      have e : swapBlock f r true n (content ts) = .ok (swapTags f r true n (tagsAt 0 ts)) := by
        unfold swapBlock
        rw [if_neg (by simp), parse_tags hb.tags]
      simp only [e]
      rw [ih k _ (by simp at hk; omega), swapTags_all hy]
      simp [before]

theorem swapTags_none {f r : Str} {all : Bool} : ∀ (ts : List (Str × Str)) (n p : Nat), (∀ t ∈ ts, ¬ f <+: tagText t) →
    swapTags f r all n (tagsAt p ts) = (content ts, n)
  | [], n, p, _ => rfl
  | t :: l, n, p, h => by
    rw [tagsAt, swapTags, if_neg (by
      rintro ⟨h', _⟩
      exact h t (by simp) (List.isPrefixOf_iff_prefix.1 h'))]
    simp only [swapTags_none l n _ (fun x hx => h x (by simp [hx]))]
    rw [content_cons, write_eq, tagText]
    simp

theorem replaceLoop_without {f r : Str} {all : Bool} {s : Str} (h : Without f s) (tail : Str) : ∀ k, (s ++ tail).length ≤ k →
    ∃ k', tail.length ≤ k' ∧ replaceLoop f r all k 0 (s ++ tail) = before s (replaceLoop f r all k' 0 tail) := by
  induction h with
  | nil =>
    intro k hk
    refine ⟨k, hk, ?_⟩
    rw [List.nil_append]
    cases replaceLoop f r all k 0 tail <;> rfl
  | @char c s hc _ ih =>
    intro k hk
    cases k with
    | zero => simp at hk
    | succ k =>
      obtain ⟨k', h1, h2⟩ := ih k (by simpa using hk)
      refine ⟨k', h1, ?_⟩
      rw [List.cons_append, replaceLoop, if_neg hc, h2]
      cases replaceLoop f r all k' 0 tail <;> rfl
  | @block ts s hb hn _ ih =>
    intro k hk
    cases k with
    | zero => simp at hk
    | succ k =>
      obtain ⟨k', h1, h2⟩ := ih k (by simp at hk ⊢; omega)
      refine ⟨k', h1, ?_⟩
      have e0 : '{' :: content ts ++ '}' :: s ++ tail = '{' :: (content ts ++ '}' :: (s ++ tail)) := by simp
      rw [e0, replaceLoop, if_pos rfl, readBlock_closed hb.braces, if_pos rfl]
      have e : swapBlock f r all 0 (content ts) = .ok (content ts, 0) := by
        unfold swapBlock
        rw [if_neg (by simp), parse_tags hb.tags]
        simp only
        rw [swapTags_none ts 0 0 hn]
      simp only [e]
      rw [h2]
      cases replaceLoop f r all k' 0 tail <;> simp [before]

theorem replaceLoop_done {f r : Str} {s : Str} (h : Closed s) : ∀ k n, 0 < n → s.length ≤ k → replaceLoop f r false k n s = .ok s := by
  induction h with
  | nil => intro k n _ _; cases k <;> rfl
  | char hc _ ih =>
    intro k n hn hk
    cases k with
    | zero => simp at hk
    | succ k =>
      rw [replaceLoop, if_neg hc, ih k n hn (by simpa using hk)]
      rfl
  | @block x s hx _ ih =>
    intro k n hn hk
    cases k with
    | zero => simp at hk
    | succ k =>
      rw [List.cons_append, replaceLoop, if_pos rfl, readBlock_closed hx, if_pos rfl]
      have e : swapBlock f r false n x = .ok (x, n) := by
        unfold swapBlock
        rw [if_pos ⟨rfl, hn⟩]
      simp only [e]
      rw [ih k n hn (by simp at hk; omega)]
      simp [before]

theorem swapTags_done {f r : Str} : ∀ (ts : List (Str × Str)) (n p : Nat), 0 < n → swapTags f r false n (tagsAt p ts) = (content ts, n)
  | [], n, p, _ => rfl
  | t :: l, n, p, h => by
    rw [tagsAt, swapTags, if_neg (by rintro ⟨_, h' | h'⟩; · cases h'
                                     · omega)]
    simp only [swapTags_done l n _ h]
    rw [content_cons, write_eq, tagText]
    simp

theorem tagsAt_append : ∀ (x y : List (Str × Str)) (p : Nat), ∃ p', tagsAt p (x ++ y) = tagsAt p x ++ tagsAt p' y
  | [], y, p => ⟨p, rfl⟩
  | t :: x, y, p => by
    obtain ⟨p', h⟩ := tagsAt_append x y (p + 1 + byteLen t.1 + byteLen t.2)
    exact ⟨p', by rw [List.cons_append, tagsAt, tagsAt, h]; rfl⟩

theorem swapTags_first {f r suffix : Str} {t : Str × Str} : ∀ (x y : List (Str × Str)) (p : Nat), (∀ u ∈ x, ¬ f <+: tagText u) →
    tagText t = f ++ suffix → swapTags f r false 0 (tagsAt p (x ++ t :: y)) = (content x ++ r ++ suffix ++ content y, 1)
  | [], y, p, _, ht => by
    rw [List.nil_append, tagsAt, swapTags, if_pos ⟨by rw [write_eq, List.isPrefixOf_iff_prefix]; exact ⟨suffix, ht.symm⟩, .inr rfl⟩]
    simp only [write_eq, ht, List.drop_left, swapTags_done y 1 _ (by omega)]
    rfl
  | u :: x, y, p, h, ht => by
    rw [List.cons_append, tagsAt, swapTags, if_neg (by
      rintro ⟨h', _⟩
      exact h u (by simp) (List.isPrefixOf_iff_prefix.1 h'))]
    simp only [swapTags_first x y _ (fun v hv => h v (by simp [hv])) ht]
    rw [content_cons, write_eq, tagText]
    simp

/-! ### Listing -/

theorem said_report (t : Tag) (base : Nat) : Said (t.name, t.args) (report base t).tag (report base t).params := by
  have hp : ∀ a, t.args = '(' :: a ++ [')'] → report base t =
      ⟨'\\' :: t.name, base + t.pos, if a = [] then [] else (splitOn ',' a).map trim⟩ := by
    intro a ha
    have e : (t.args.drop 1).dropLast = a := by rw [ha]; simp
    have hc : t.args.head? = some '(' ∧ t.args.getLast? = some ')' :=
      ⟨by rw [ha]; rfl, by rw [ha]; exact List.getLast?_concat⟩
    unfold report
    rw [if_pos hc, e]
  refine ⟨?_, ?_, ?_⟩
  · intro h
    rw [hp [] h]
    exact ⟨rfl, rfl⟩
  · intro fs h hne hf
    rw [hp _ h]
    have hfs : fs ≠ [] := by rintro rfl; exact hne rfl
    refine ⟨rfl, ?_⟩
    simp only [if_neg hne, StyleCmd.splitOn_csv hfs hf]
    refine ⟨by simp, ?_⟩
    intro i f p h1 h2
    rw [List.getElem?_map, h1] at h2
    injection h2 with h2
    rw [← h2]
    exact InfoCmd.stripped_trim f
  · intro h
    unfold report
    rw [if_neg]
    · exact ⟨rfl, rfl⟩
    · rintro ⟨h1, h2⟩
      cases hx : t.args with
      | nil => rw [hx] at h1; cases h1
      | cons c s =>
        rw [hx] at h1 h2
        injection h1 with h1
        subst h1
        cases s with
        | nil => simp at h2
        | cons d s =>
          rw [List.getLast?_cons_cons, List.getLast?_eq_some_iff] at h2
          obtain ⟨a, ha⟩ := h2
          exact h a (by simp only; rw [hx, ha]; rfl)

theorem parseLoop_lists {n : Nat} {s : Str} {l : List (Nat × (Str × Str))} (h : Lists n s l) : ∀ (start k pos : Nat), s.length ≤ k →
    ∃ ps, parseLoop start k pos s = .ok ps ∧ ps.length = l.length ∧ ∀ (i : Nat) (x : Nat × (Str × Str)) (p : Parsed),
      l[i]? = some x → ps[i]? = some p → Said x.2 p.tag p.params := by
  induction h with
  | nil => intro start k pos _; exact ⟨[], by cases k <;> rfl, rfl, by simp⟩
  | char hc _ ih =>
    intro start k pos hk
    cases k with
    | zero => simp at hk
    | succ k =>
      obtain ⟨ps, h1, h2⟩ := ih start k (pos + 1) (by simpa using hk)
      exact ⟨ps, by rw [parseLoop, if_neg hc, h1], h2⟩
  | @block n ts s l hb _ ih =>
    intro start k pos hk
    cases k with
    | zero => simp at hk
    | succ k =>
      obtain ⟨ps, h1, h2, h3⟩ := ih start k (pos + 1 + (content ts).length + 1) (by simp at hk; omega)
      refine ⟨(tagsAt 0 ts).map (report (start + pos)) ++ ps, ?_, ?_, ?_⟩
      · rw [List.cons_append, parseLoop, if_pos rfl, readBlock_closed hb.braces]
        simp only [parse_tags hb.tags, if_true]
        rw [h1]
      · rw [List.length_append, List.length_append, h2, List.length_map]
        have key : ∀ (ts : List (Str × Str)) (p m : Nat), (tagsAt p ts).length = (places m ts).length := by
          intro ts
          induction ts with
          | nil => intro p m; rfl
          | cons t ts ih => intro p m; simp only [tagsAt, places, List.length_cons]; rw [ih]
        rw [key ts 0 (n + 1)]
      · have key : ∀ (ts : List (Str × Str)) (p m i : Nat) (x : Nat × (Str × Str)) (y : Parsed) (l : List (Nat × (Str × Str))) (ps : List Parsed),
            (∀ (i : Nat) (x : Nat × (Str × Str)) (p : Parsed), l[i]? = some x → ps[i]? = some p → Said x.2 p.tag p.params) →
            (places m ts ++ l)[i]? = some x → ((tagsAt p ts).map (report (start + pos)) ++ ps)[i]? = some y → Said x.2 y.tag y.params := by
          intro ts
          induction ts with
          | nil => intro p m i x y l ps h hx hy; exact h i x y hx hy
          | cons t ts ih =>
            intro p m i x y l ps h hx hy
            cases i with
            | zero =>
              simp [places] at hx
              simp [tagsAt] at hy
              subst hx; subst hy
              exact said_report ⟨t.1, t.2, p⟩ _
            | succ i =>
              simp only [places, List.cons_append, List.getElem?_cons_succ] at hx
              simp only [tagsAt, List.map_cons, List.cons_append, List.getElem?_cons_succ] at hy
              exact ih _ _ i x y l ps h hx hy
        exact fun i x p hx hp => key ts 0 (n + 1) i x p l ps h3 hx hp

end Verif.TagCmd
