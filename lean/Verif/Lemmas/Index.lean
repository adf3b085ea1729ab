import Verif.Spec.Index
import Verif.Lemmas.Search
import Verif.Lemmas.Karaoke
import Verif.Lemmas.Stream
import Verif.Lemmas.StrX
namespace Verif.Index
open Verif Verif.Doc Verif.Pos
open Verif.Search (Hit words_mem words_sorted base)
open Verif.Spec.Srch (IsWordAt)
open Verif.Spec.Index

/-! ## Entries -/

theorem words_iff (word : Char → Bool) (s w : Str) (p : Nat) : (p, w) ∈ Search.words word s 0 none ↔ IsWordAt word s w p := by
  have := words_mem (word := word) (p := p) (w := w) s none [] (by intro c hc; simp at hc)
  rw [show byteLen ([] : Str) = 0 from rfl] at this
  rw [this]; simp [base]

/-- The section a line belongs to. -/
def secAt (cur : Option Str) (ls : List Str) (i : Nat) : Option Str := (ls.take (i + 1)).foldl sectionOf cur

theorem lineStart_cons (l : Str) (ls : List Str) (i : Nat) : lineStart (l :: ls) (i + 1) = byteLen l + 1 + lineStart ls i := by
  simp [lineStart]

theorem lineStart_zero (ls : List Str) : lineStart ls 0 = 0 := rfl

theorem mem_entries {word : Char → Bool} {lower : Str → Str} {k : Str} {e : Entry} : ∀ {ls : List Str} {n start : Nat} {cur : Option Str},
    (k, e) ∈ entries word lower n start cur ls ↔ ∃ (i : Nat) (l w : Str) (p : Nat), WordIn word ls i l w p ∧ 2 ≤ byteLen w ∧ k = lower w ∧
      e = ⟨start + lineStart ls i + p, l, n + i, p, secAt cur ls i⟩ := by
  intro ls
  induction ls with
  | nil => intro n start cur; simp [entries, WordIn]
  | cons line ls ih =>
    intro n start cur
    simp only [entries, List.mem_append, List.mem_map, List.mem_filter, ih]
    constructor
    · rintro (⟨⟨p, w⟩, ⟨h1, h2⟩, h3⟩ | ⟨i, l, w, p, ⟨h1, h2⟩, h3, h4, h5⟩)
      · refine ⟨0, line, w, p, ⟨rfl, (words_iff word line w p).1 h1⟩, of_decide_eq_true h2, ?_, ?_⟩
        · exact (congrArg Prod.fst h3).symm
        · have := (congrArg Prod.snd h3).symm
          simp only at this
          rw [this, lineStart_zero]; rfl
      · refine ⟨i + 1, l, w, p, ⟨by simpa using h1, h2⟩, h3, h4, ?_⟩
        rw [h5, lineStart_cons]
        have e1 : start + byteLen line + 1 + lineStart ls i + p = start + (byteLen line + 1 + lineStart ls i) + p := by omega
        have e2 : n + 1 + i = n + (i + 1) := by omega
        rw [e1, e2]; rfl
    · rintro ⟨i, l, w, p, ⟨h1, h2⟩, h3, h4, h5⟩
      cases i with
      | zero =>
        left
        simp only [List.getElem?_cons_zero, Option.some.injEq] at h1
        subst h1
        refine ⟨(p, w), ⟨(words_iff word line w p).2 h2, decide_eq_true h3⟩, ?_⟩
        rw [h4, h5]; rfl
      | succ i =>
        right
        refine ⟨i, l, w, p, ⟨by simpa using h1, h2⟩, h3, h4, ?_⟩
        rw [h5, lineStart_cons]
        have e1 : start + byteLen line + 1 + lineStart ls i + p = start + (byteLen line + 1 + lineStart ls i) + p := by omega
        have e2 : n + 1 + i = n + (i + 1) := by omega
        rw [e1, e2]; rfl

theorem word_bound {word : Char → Bool} {l w : Str} {p : Nat} (h : IsWordAt word l w p) : p + byteLen w ≤ byteLen l := by
  obtain ⟨a, b, h1, h2, _⟩ := h
  rw [h1]; simp only [byteLen_append]; omega

theorem entries_sorted (word : Char → Bool) (lower : Str → Str) : ∀ (ls : List Str) (n start : Nat) (cur : Option Str),
    (entries word lower n start cur ls).Pairwise (fun a b => a.2.pos < b.2.pos) ∧
    ∀ x ∈ entries word lower n start cur ls, start ≤ x.2.pos := by
  intro ls
  induction ls with
  | nil => intro n start cur; simp [entries]
  | cons line ls ih =>
    intro n start cur
    obtain ⟨h1, h2⟩ := ih (n + 1) (start + byteLen line + 1) (sectionOf cur line)
    have hw : ∀ x ∈ ((Search.words word line 0 none).filter (fun w => byteLen w.2 ≥ 2)).map
        (fun w => (lower w.2, (⟨start + w.1, line, n, w.1, sectionOf cur line⟩ : Entry))),
        start ≤ x.2.pos ∧ x.2.pos ≤ start + byteLen line := by
      intro x hx
      obtain ⟨⟨p, w⟩, hp, rfl⟩ := List.mem_map.1 hx
      have := word_bound ((words_iff word line w p).1 (List.mem_filter.1 hp).1)
      simp only; omega
    simp only [entries]
    refine ⟨List.pairwise_append.2 ⟨?_, h1, ?_⟩, ?_⟩
    · rw [List.pairwise_map]
      refine ((words_sorted line 0 none (by simp)).1.filter _).imp ?_
      intro a b hab
      simp only; omega
    · intro a ha b hb
      have := hw a ha
      have := h2 b hb
      omega
    · intro x hx
      rcases List.mem_append.1 hx with hx | hx
      · exact (hw x hx).1
      · have := h2 x hx; omega

/-! ## Sections -/

theorem header_iff {l name : Str} : Header l name ↔ l.head? = some '[' ∧ l.getLast? = some ']' ∧ name = (l.drop 1).dropLast := by
  constructor
  · rintro rfl
    refine ⟨rfl, ?_, ?_⟩
    · rw [List.getLast?_append]; simp
    · simp
  · rintro ⟨h1, h2, h3⟩
    cases l with
    | nil => simp at h1
    | cons c l =>
      simp only [List.head?_cons, Option.some.injEq] at h1
      subst h1
      rcases List.eq_nil_or_concat l with rfl | ⟨l, x, rfl⟩ <;> try rw [List.concat_eq_append] at *
      · simp at h2
      · rw [show '[' :: (l ++ [x]) = ('[' :: l) ++ [x] from rfl, List.getLast?_concat] at h2
        injection h2 with h2
        subst h2
        simp only [List.drop_succ_cons, List.drop_zero, List.dropLast_concat] at h3
        subst h3
        rfl

theorem sectionOf_header {cur : Option Str} {l name : Str} (h : Header l name) : sectionOf cur l = some name := by
  obtain ⟨h1, h2, h3⟩ := header_iff.1 h
  unfold sectionOf
  rw [if_pos ⟨h1, h2⟩, h3]

theorem sectionOf_other {cur : Option Str} {l : Str} (h : ∀ name, ¬ Header l name) : sectionOf cur l = cur := by
  unfold sectionOf
  rw [if_neg]
  rintro ⟨h1, h2⟩
  exact h _ (header_iff.2 ⟨h1, h2, rfl⟩)

theorem secAt_zero (cur : Option Str) (l : Str) (ls : List Str) : secAt cur (l :: ls) 0 = sectionOf cur l := rfl

theorem secAt_succ (cur : Option Str) (l : Str) (ls : List Str) (i : Nat) :
    secAt cur (l :: ls) (i + 1) = secAt (sectionOf cur l) ls i := by simp [secAt]

/-- The section is the last one begun, or the one in force before. -/
theorem secAt_iff {name : Str} : ∀ {ls : List Str} {i : Nat} {cur : Option Str}, i < ls.length →
    (secAt cur ls i = some name ↔ InSection ls i name ∨ cur = some name ∧ ∀ (j : Nat) (k other : Str), j ≤ i → ls[j]? = some k → ¬ Header k other) := by
  intro ls
  induction ls with
  | nil => intro i cur h; simp at h
  | cons l ls ih =>
    intro i cur hi
    cases i with
    | zero =>
      rw [secAt_zero]
      by_cases hh : ∃ nm, Header l nm
      · obtain ⟨nm, hh⟩ := hh
        rw [sectionOf_header hh]
        constructor
        · intro h
          injection h with h
          subst h
          exact .inl ⟨0, l, by omega, rfl, hh, fun j k o h1 h2 => by omega⟩
        · rintro (⟨m, l', hm, hl, hhd, _⟩ | ⟨_, h⟩)
          · have : m = 0 := by omega
            subst this
            simp only [List.getElem?_cons_zero, Option.some.injEq] at hl
            subst hl
            have e1 := (header_iff.1 hh).2.2
            have e2 := (header_iff.1 hhd).2.2
            rw [e1, e2]
          · exact absurd hh (h 0 l nm (by omega) rfl)
      · have hh : ∀ nm, ¬ Header l nm := fun nm h => hh ⟨nm, h⟩
        rw [sectionOf_other hh]
        constructor
        · intro h
          refine .inr ⟨h, ?_⟩
          intro j k o hj hk
          have : j = 0 := by omega
          subst this
          simp only [List.getElem?_cons_zero, Option.some.injEq] at hk
          subst hk
          exact hh o
        · rintro (⟨m, l', hm, hl, hhd, _⟩ | ⟨h, _⟩)
          · have : m = 0 := by omega
            subst this
            simp only [List.getElem?_cons_zero, Option.some.injEq] at hl
            subst hl
            exact absurd hhd (hh name)
          · exact h
    | succ i =>
      rw [secAt_succ, ih (by simpa using hi)]
      constructor
      · rintro (⟨m, l', hm, hl, hhd, hlast⟩ | ⟨h, hno⟩)
        · refine .inl ⟨m + 1, l', by omega, by simpa using hl, hhd, ?_⟩
          intro j k o h1 h2 hk
          cases j with
          | zero => omega
          | succ j => exact hlast j k o (by omega) (by omega) (by simpa using hk)
        · by_cases hh : ∃ nm, Header l nm
          · obtain ⟨nm, hh⟩ := hh
            rw [sectionOf_header hh] at h
            injection h with h
            subst h
            refine .inl ⟨0, l, by omega, rfl, hh, ?_⟩
            intro j k o h1 h2 hk
            cases j with
            | zero => omega
            | succ j => exact hno j k o (by omega) (by simpa using hk)
          · have hh : ∀ nm, ¬ Header l nm := fun nm h => hh ⟨nm, h⟩
            rw [sectionOf_other hh] at h
            refine .inr ⟨h, ?_⟩
            intro j k o hj hk
            cases j with
            | zero =>
              simp only [List.getElem?_cons_zero, Option.some.injEq] at hk
              subst hk
              exact hh o
            | succ j => exact hno j k o (by omega) (by simpa using hk)
      · rintro (⟨m, l', hm, hl, hhd, hlast⟩ | ⟨h, hno⟩)
        · cases m with
          | zero =>
            simp only [List.getElem?_cons_zero, Option.some.injEq] at hl
            subst hl
            refine .inr ⟨sectionOf_header hhd, ?_⟩
            intro j k o hj hk
            exact hlast (j + 1) k o (by omega) (by omega) (by simpa using hk)
          | succ m =>
            refine .inl ⟨m, l', by omega, by simpa using hl, hhd, ?_⟩
            intro j k o h1 h2 hk
            exact hlast (j + 1) k o (by omega) (by omega) (by simpa using hk)
        · refine .inr ⟨?_, ?_⟩
          · rw [sectionOf_other (fun nm => hno 0 l nm (by omega) rfl)]; exact h
          · intro j k o hj hk
            exact hno (j + 1) k o (by omega) (by simpa using hk)

theorem secAt_none {name : Str} {ls : List Str} {i : Nat} (hi : i < ls.length) : secAt none ls i = some name ↔ InSection ls i name := by
  rw [secAt_iff hi]
  constructor
  · rintro (h | ⟨h, _⟩)
    · exact h
    · cases h
  · exact .inl

theorem scope_iff {ls : List Str} {n col : Nat} {l : Str} (hn : n < ls.length) (scope : Scope) :
    inScope ⟨lineStart ls n + col, l, n, col, secAt none ls n⟩ scope = true ↔ Wanted ls n col scope := by
  cases scope with
  | all => simp [inScope, Wanted]
  | lines a b => simp [inScope, Wanted]
  | range a b => simp [inScope, Wanted]
  | sections names =>
    simp only [inScope, Wanted]
    cases hs : secAt none ls n with
    | none =>
      simp only [Bool.false_eq_true, false_iff]
      rintro ⟨name, _, h⟩
      rw [← secAt_none hn, hs] at h
      cases h
    | some s =>
      simp only [List.contains_iff_mem]
      constructor
      · intro h; exact ⟨s, h, (secAt_none hn).1 hs⟩
      · rintro ⟨name, h1, h2⟩
        rw [← secAt_none hn, hs] at h2
        injection h2 with h2
        rw [h2]; exact h1

/-! ## Keys -/

theorem bytesLt_irrefl : ∀ a : List Nat, bytesLt a a = false
  | [] => rfl
  | a :: as => by simp [bytesLt, bytesLt_irrefl as]

theorem bytesLt_trans : ∀ {a b c : List Nat}, bytesLt a b = true → bytesLt b c = true → bytesLt a c = true
  | [], [], _, h, _ => by simp [bytesLt] at h
  | [], _ :: _, [], _, h => by simp [bytesLt] at h
  | [], _ :: _, _ :: _, _, _ => rfl
  | _ :: _, [], _, h, _ => by simp [bytesLt] at h
  | _ :: _, _ :: _, [], _, h => by simp [bytesLt] at h
  | a :: as, b :: bs, c :: cs, h1, h2 => by
    simp only [bytesLt, Bool.or_eq_true, Bool.and_eq_true, decide_eq_true_eq] at *
    rcases h1 with h1 | ⟨rfl, h1⟩
    · rcases h2 with h2 | ⟨rfl, h2⟩
      · left; omega
      · left; exact h1
    · rcases h2 with h2 | ⟨rfl, h2⟩
      · left; exact h2
      · right; exact ⟨rfl, bytesLt_trans h1 h2⟩

theorem bytesLt_total : ∀ {a b : List Nat}, a ≠ b → bytesLt a b = false → bytesLt b a = true
  | [], [], h, _ => absurd rfl h
  | [], _ :: _, _, h => by simp [bytesLt] at h
  | _ :: _, [], _, _ => rfl
  | a :: as, b :: bs, h, h2 => by
    simp only [bytesLt, Bool.or_eq_true, Bool.and_eq_true, decide_eq_true_eq, Bool.or_eq_false_iff, Bool.and_eq_false_iff,
      decide_eq_false_iff_not] at *
    by_cases hab : a = b
    · subst hab
      right
      refine ⟨rfl, bytesLt_total (fun e => h (by rw [e])) ?_⟩
      rcases h2.2 with h3 | h3
      · exact absurd rfl h3
      · exact h3
    · left; omega

theorem utf8_inj {a b : Str} (h : utf8 a = utf8 b) : a = b := by
  have h1 := Stream.decode_utf8 a
  rw [h, Stream.decode_utf8 b] at h1
  exact (Option.some.inj h1).symm

theorem mem_insertKey {k x : Str} {l : List Str} : x ∈ insertKey k l ↔ x = k ∨ x ∈ l := by
  induction l with
  | nil => simp [insertKey]
  | cons a l ih =>
    simp only [insertKey]
    split
    · next h => subst h; simp
    · split
      · simp
      · simp only [List.mem_cons, ih]
        constructor
        · rintro (h | h | h) <;> simp [h]
        · rintro (h | h | h) <;> simp [h]

theorem insertKey_sorted {k : Str} {l : List Str} (h : l.Pairwise (fun a b => bytesLt (utf8 a) (utf8 b) = true)) :
    (insertKey k l).Pairwise (fun a b => bytesLt (utf8 a) (utf8 b) = true) := by
  induction l with
  | nil => simp [insertKey]
  | cons a l ih =>
    obtain ⟨h1, h2⟩ := List.pairwise_cons.1 h
    simp only [insertKey]
    split
    · exact h
    · next hne =>
      split
      · next hlt =>
        refine List.pairwise_cons.2 ⟨?_, h⟩
        intro b hb
        rcases List.mem_cons.1 hb with rfl | hb
        · exact hlt
        · exact bytesLt_trans hlt (h1 b hb)
      · next hlt =>
        refine List.pairwise_cons.2 ⟨?_, ih h2⟩
        intro b hb
        rcases mem_insertKey.1 hb with rfl | hb
        · exact bytesLt_total (fun e => hne (utf8_inj e).symm) (by simpa using hlt)
        · exact h1 b hb

theorem keys_aux (ix : List (Str × Entry)) : ∀ acc : List Str, acc.Pairwise (fun a b => bytesLt (utf8 a) (utf8 b) = true) →
    (ix.foldl (fun acc e => insertKey e.1 acc) acc).Pairwise (fun a b => bytesLt (utf8 a) (utf8 b) = true) ∧
    ∀ k, k ∈ ix.foldl (fun acc e => insertKey e.1 acc) acc ↔ k ∈ acc ∨ ∃ e, (k, e) ∈ ix := by
  induction ix with
  | nil => intro acc h; simp [h]
  | cons x ix ih =>
    intro acc h
    obtain ⟨h1, h2⟩ := ih (insertKey x.1 acc) (insertKey_sorted h)
    refine ⟨h1, ?_⟩
    intro k
    rw [List.foldl_cons, h2, mem_insertKey]
    constructor
    · rintro ((h | h) | ⟨e, h⟩)
      · exact .inr ⟨x.2, by rw [h]; simp⟩
      · exact .inl h
      · exact .inr ⟨e, by simp [h]⟩
    · rintro (h | ⟨e, h⟩)
      · exact .inl (.inr h)
      · rcases List.mem_cons.1 h with h | h
        · exact .inl (.inl (by rw [← h]))
        · exact .inr ⟨e, h⟩

theorem keys_sorted (ix : List (Str × Entry)) : (keys ix).Pairwise (fun a b => bytesLt (utf8 a) (utf8 b) = true) :=
  (keys_aux ix [] List.Pairwise.nil).1

theorem mem_keys {ix : List (Str × Entry)} {k : Str} : k ∈ keys ix ↔ ∃ e, (k, e) ∈ ix := by
  have := (keys_aux ix [] List.Pairwise.nil).2 k
  simpa [keys] using this

theorem keys_nodup (ix : List (Str × Entry)) : (keys ix).Nodup := by
  refine (keys_sorted ix).imp ?_
  intro a b h e
  subst e
  rw [bytesLt_irrefl] at h
  cases h

theorem subseq_iff : ∀ {a b : List Nat}, subseq a b = true ↔ a.Sublist b
  | [], b => by simp [subseq]
  | _ :: _, [] => by simp [subseq]
  | a :: as, b :: bs => by
    simp only [subseq]
    by_cases h : a = b
    · subst h
      rw [if_pos rfl, subseq_iff, List.cons_sublist_cons]
    · rw [if_neg h, subseq_iff]
      constructor
      · exact fun hs => hs.cons b
      · intro hs
        cases hs with
        | cons _ h1 => exact h1
        | cons_cons _ h1 => exact absurd rfl h

/-! ## Searching -/

theorem mem_search {lower : Str → Str} {ix : List (Str × Entry)} {pat : Str} {sensitive : Bool} {scope : Scope} {h : Hit} :
    h ∈ search lower (some ix) pat sensitive 0 scope ↔ ∃ k e, (k, e) ∈ ix ∧
      (utf8 (if sensitive then pat else lower pat)).Sublist (utf8 k) ∧ inScope e scope = true ∧ h = hit pat e := by
  simp only [search, Nat.lt_irrefl, gt_iff_lt, if_false, List.mem_flatMap, List.mem_filter, List.mem_map, Bool.and_eq_true,
    decide_eq_true_eq, subseq_iff, mem_keys]
  constructor
  · rintro ⟨k, ⟨_, h2⟩, ⟨k', e⟩, ⟨h3, h4, h5⟩, h6⟩
    simp only at h4 h5 h6
    subst h4
    exact ⟨k', e, h3, h2, h5, h6.symm⟩
  · rintro ⟨k, e, h1, h2, h3, h4⟩
    exact ⟨k, ⟨⟨e, h1⟩, h2⟩, (k, e), ⟨h1, rfl, h3⟩, h4.symm⟩

theorem nodup_flatMap {f : Str → List Hit} : ∀ {l : List Str}, l.Nodup → (∀ k ∈ l, ((f k).map (·.start)).Nodup) →
    (∀ k ∈ l, ∀ k' ∈ l, ∀ h ∈ f k, ∀ h' ∈ f k', h.start = h'.start → k = k') → ((l.flatMap f).map (·.start)).Nodup := by
  intro l
  induction l with
  | nil => intro _ _ _; simp
  | cons k l ih =>
    intro hn h1 h2
    obtain ⟨hk, hn⟩ := List.nodup_cons.1 hn
    rw [List.flatMap_cons, List.map_append, List.nodup_append]
    refine ⟨h1 k (by simp), ih hn (fun k' hk' => h1 k' (by simp [hk'])) (fun a ha b hb => h2 a (by simp [ha]) b (by simp [hb])), ?_⟩
    intro a ha b hb e
    obtain ⟨x, hx, rfl⟩ := List.mem_map.1 ha
    obtain ⟨y, hy, rfl⟩ := List.mem_map.1 hb
    obtain ⟨k', hk', hy⟩ := List.mem_flatMap.1 hy
    have := h2 k (by simp) k' (by simp [hk']) x hx y hy e
    subst this
    exact hk hk'

theorem search_nodup {lower : Str → Str} {ix : List (Str × Entry)} (hix : ix.Pairwise (fun a b => a.2.pos < b.2.pos)) (pat : Str)
    (sensitive : Bool) (scope : Scope) : ((search lower (some ix) pat sensitive 0 scope).map (·.start)).Nodup := by
  simp only [search, Nat.lt_irrefl, gt_iff_lt, if_false]
  apply nodup_flatMap
  · exact (keys_nodup ix).sublist (List.filter_sublist)
  · intro k _
    rw [List.map_map]
    refine List.Pairwise.map _ (R := fun a b => a.2.pos < b.2.pos) ?_ (hix.sublist List.filter_sublist)
    intro a b hab e
    simp only [Function.comp, hit] at e
    omega
  · intro k _ k' _ h hh h' hh' e
    obtain ⟨x, hx, rfl⟩ := List.mem_map.1 hh
    obtain ⟨y, hy, rfl⟩ := List.mem_map.1 hh'
    obtain ⟨hx1, hx2⟩ := List.mem_filter.1 hx
    obtain ⟨hy1, hy2⟩ := List.mem_filter.1 hy
    simp only [Bool.and_eq_true, decide_eq_true_eq] at hx2 hy2
    simp only [hit] at e
    have hxy : x = y := by
      apply Classical.byContradiction
      intro hne
      have : x.2.pos ≠ y.2.pos := by
        have tri : ∀ {l : List (Str × Entry)}, l.Pairwise (fun a b => a.2.pos < b.2.pos) → ∀ a ∈ l, ∀ b ∈ l, a ≠ b → a.2.pos ≠ b.2.pos := by
          intro l hl
          induction hl with
          | nil => intro a ha; simp at ha
          | @cons z l hz _ ih =>
            intro a ha b hb hab
            rcases List.mem_cons.1 ha with rfl | ha'
            · rcases List.mem_cons.1 hb with rfl | hb'
              · exact absurd rfl hab
              · have := hz b hb'; omega
            · rcases List.mem_cons.1 hb with rfl | hb'
              · have := hz a ha'; omega
              · exact ih a ha' b hb' hab
        exact tri hix x hx1 y hy1 hne
      exact this e
    rw [← hx2.1, ← hy2.1, hxy]

/-! ## Where the lines are -/

theorem getLast_ne {l : Str} (h : '\r' ∉ l) : l.getLast? ≠ some '\r' := fun e => h (List.mem_of_getLast? e)

/-- Without carriage returns lines begin where the index takes them to begin. -/
theorem line_place : ∀ (n : Nat) (text l : Str), '\r' ∉ text → (lines text)[n]? = some l →
    ∃ a b, text = a ++ l ++ b ∧ byteLen a = lineStart (lines text) n ∧ a.count '\n' = n ∧
      (a = [] ∨ a.getLast? = some '\n') ∧ (b = [] ∨ b.head? = some '\n') := by
  intro n
  induction n with
  | zero =>
    intro text l hr h
    by_cases hm : '\n' ∈ text
    · obtain ⟨x, y, rfl, hx⟩ := List.eq_append_cons_of_mem hm
      rw [lines_append x hx y, stripCr_of (getLast_ne (fun h => hr (by simp [h])))] at h
      simp only [List.getElem?_cons_zero, Option.some.injEq] at h
      subst h
      exact ⟨[], '\n' :: y, by simp, rfl, rfl, .inl rfl, .inr rfl⟩
    · by_cases he : text = []
      · subst he; simp at h
      · rw [lines_last hm he] at h
        simp only [List.getElem?_cons_zero, Option.some.injEq] at h
        subst h
        exact ⟨[], [], by simp, rfl, rfl, .inl rfl, .inl rfl⟩
  | succ n ih =>
    intro text l hr h
    by_cases hm : '\n' ∈ text
    · obtain ⟨x, y, rfl, hx⟩ := List.eq_append_cons_of_mem hm
      have e := lines_append x hx y
      rw [stripCr_of (getLast_ne (fun h => hr (by simp [h])))] at e
      rw [e] at h ⊢
      simp only [List.getElem?_cons_succ] at h
      obtain ⟨a, b, h1, h2, h3, h4, h5⟩ := ih y l (fun h => hr (by simp [h])) h
      refine ⟨x ++ '\n' :: a, b, by rw [h1]; simp, ?_, ?_, ?_, h5⟩
      · rw [lineStart_cons, ← h2]
        simp only [byteLen_append, byteLen_cons]
        have : ('\n' : Char).utf8Size = 1 := rfl
        omega
      · rw [List.count_append, List.count_cons_self, List.count_eq_zero.2 hx, h3]; omega
      · right
        rcases h4 with rfl | h4
        · rw [List.getLast?_append]; rfl
        · rw [List.getLast?_append, List.getLast?_cons, h4]; rfl
    · by_cases he : text = []
      · subst he; simp at h
      · rw [lines_last hm he] at h
        simp at h

/-! ## The linear index -/

theorem mem_number {lower : Str → Str} {line : Str} {n start : Nat} {x : Str × Entry} : ∀ {ws : List Str} {i : Nat},
    x ∈ number lower line n start i ws ↔ ∃ (j : Nat) (w : Str), ws[j]? = some w ∧ x = (lower w, ⟨start + (i + j), line, n, i + j, none⟩) := by
  intro ws
  induction ws with
  | nil => intro i; simp [number]
  | cons w ws ih =>
    intro i
    simp only [number, List.mem_cons, ih]
    constructor
    · rintro (rfl | ⟨j, w', h1, h2⟩)
      · exact ⟨0, w, rfl, rfl⟩
      · exact ⟨j + 1, w', by simpa using h1, by rw [h2, show i + 1 + j = i + (j + 1) by omega]⟩
    · rintro ⟨j, w', h1, h2⟩
      cases j with
      | zero =>
        simp only [List.getElem?_cons_zero, Option.some.injEq] at h1
        subst h1
        exact .inl h2
      | succ j => exact .inr ⟨j, w', by simpa using h1, by rw [h2, show i + 1 + j = i + (j + 1) by omega]⟩

theorem mem_linear {lower : Str → Str} {x : Str × Entry} : ∀ {ls : List Str} {n start : Nat},
    x ∈ linear lower n start ls ↔ ∃ (i j : Nat) (l w : Str), ls[i]? = some l ∧ (Karaoke.words l)[j]? = some w ∧
      x = (lower w, ⟨start + lineStart ls i + j, l, n + i, j, none⟩) := by
  intro ls
  induction ls with
  | nil => intro n start; simp [linear]
  | cons line ls ih =>
    intro n start
    simp only [linear, List.mem_append, mem_number, ih]
    constructor
    · rintro (⟨j, w, h1, h2⟩ | ⟨i, j, l, w, h1, h2, h3⟩)
      · exact ⟨0, j, line, w, rfl, h1, by rw [h2, lineStart_zero]; simp⟩
      · refine ⟨i + 1, j, l, w, by simpa using h1, h2, ?_⟩
        rw [h3, lineStart_cons, show start + byteLen line + 1 + lineStart ls i + j = start + (byteLen line + 1 + lineStart ls i) + j by omega,
          show n + 1 + i = n + (i + 1) by omega]
    · rintro ⟨i, j, l, w, h1, h2, h3⟩
      cases i with
      | zero =>
        simp only [List.getElem?_cons_zero, Option.some.injEq] at h1
        subst h1
        exact .inl ⟨j, w, h2, by rw [h3, lineStart_zero]; simp⟩
      | succ i =>
        refine .inr ⟨i, j, l, w, by simpa using h1, h2, ?_⟩
        rw [h3, lineStart_cons, show start + byteLen line + 1 + lineStart ls i + j = start + (byteLen line + 1 + lineStart ls i) + j by omega,
          show n + 1 + i = n + (i + 1) by omega]

/-! ## Words and lines -/

theorem linesAux_no_lf : ∀ (s cur : Str), '\n' ∉ cur → ∀ l ∈ linesAux cur s, '\n' ∉ l := by
  intro s
  induction s with
  | nil =>
    intro cur hc l hl
    cases cur with
    | nil => simp [linesAux] at hl
    | cons x cur =>
      simp only [linesAux, List.mem_singleton] at hl
      subst hl
      intro hm
      exact hc (List.mem_reverse.1 hm)
  | cons c s ih =>
    intro cur hc l hl
    simp only [linesAux] at hl
    by_cases hn : c = '\n'
    · rw [if_pos hn] at hl
      rcases List.mem_cons.1 hl with rfl | hl
      · intro hm
        have : '\n' ∈ cur.reverse := by
          unfold stripCr at hm
          split at hm
          · exact (List.dropLast_sublist _).mem hm
          · exact hm
        exact hc (by simpa using this)
      · exact ih [] (by simp) l hl
    · rw [if_neg hn] at hl
      exact ih (c :: cur) (by simp [hc, Ne.symm hn]) l hl

theorem lines_no_lf {text l : Str} (h : l ∈ lines text) : '\n' ∉ l := linesAux_no_lf text [] (by simp) l h

theorem exists_words : ∀ (n : Nat) (s : Str), s.length ≤ n → ∃ l, Verif.Spec.Kara.Words s l := by
  intro n
  induction n with
  | zero =>
    intro s h
    have : s = [] := List.length_eq_zero_iff.1 (by omega)
    subst this
    exact ⟨[], .nil [] (by simp)⟩
  | succ n ih =>
    intro s h
    have hw : ∀ c ∈ s.takeWhile isWs, Verif.Spec.SrtDoc.White c := fun c hc =>
      (SrtDoc.white_iff c).1 (List.all_eq_true.1 List.all_takeWhile c hc)
    have e1 : s = s.takeWhile isWs ++ s.dropWhile isWs := List.takeWhile_append_dropWhile.symm
    by_cases he : s.dropWhile isWs = []
    · rw [he, List.append_nil] at e1
      rw [e1]
      exact ⟨[], .nil _ hw⟩
    · have e2 : s.dropWhile isWs = (s.dropWhile isWs).takeWhile (fun c => !isWs c) ++ (s.dropWhile isWs).dropWhile (fun c => !isWs c) :=
        List.takeWhile_append_dropWhile.symm
      generalize hr : (s.dropWhile isWs).dropWhile (fun c => !isWs c) = rest at e2
      generalize ht : (s.dropWhile isWs).takeWhile (fun c => !isWs c) = t at e2
      have hne : t ≠ [] := by
        intro h0
        have hd := List.head?_dropWhile_not isWs s
        cases hs : s.dropWhile isWs with
        | nil => exact he hs
        | cons c r =>
          rw [hs] at ht hd
          simp only [List.head?_cons] at hd
          rw [List.takeWhile_cons, h0, if_pos (by rw [hd]; rfl)] at ht
          cases ht
      have hlen : rest.length ≤ n := by
        have h1 := congrArg List.length e1
        have h2 := congrArg List.length e2
        rw [List.length_append] at h1 h2
        have := List.length_pos_iff.2 hne
        omega
      obtain ⟨l, hl⟩ := ih rest hlen
      refine ⟨t :: l, ?_⟩
      rw [e1, e2, ← List.append_assoc]
      refine .cons _ _ _ _ hw hne ?_ ?_ hl
      · intro c hc hwc
        rw [← ht] at hc
        have := List.all_eq_true.1 (List.all_takeWhile (p := fun c => !isWs c)) c hc
        rw [(SrtDoc.white_iff c).2 hwc] at this
        simp at this
      · intro c hc
        have hd := List.head?_dropWhile_not (fun c => !isWs c) (s.dropWhile isWs)
        rw [hr, hc] at hd
        simp only at hd
        exact (SrtDoc.white_iff c).1 (by simpa using hd)

theorem words_words (s : Str) : Verif.Spec.Kara.Words s (Karaoke.words s) := by
  obtain ⟨l, hl⟩ := exists_words s.length s (Nat.le_refl _)
  rw [Karaoke.words_eq hl]; exact hl

theorem mem_linearSearch {lower : Str → Str} {ix : List (Str × Entry)} {order : List Str} (ho : ∀ k, k ∈ order ↔ ∃ e, (k, e) ∈ ix) {pat : Str}
    {max : Nat} {h : Hit} : h ∈ linearSearch lower ix order pat max ↔ ∃ k e, (k, e) ∈ ix ∧ containsStr (lower pat) k = true ∧ h = hit pat e := by
  simp only [linearSearch, List.mem_flatMap, List.mem_filter, List.mem_map, decide_eq_true_eq]
  constructor
  · rintro ⟨k, ⟨_, h2⟩, ⟨k', e⟩, ⟨h3, h4⟩, h6⟩
    simp only at h4; subst h4
    exact ⟨k', e, h3, h2, h6.symm⟩
  · rintro ⟨k, e, h1, h2, rfl⟩
    exact ⟨k, ⟨(ho k).2 ⟨e, h1⟩, h2⟩, (k, e), ⟨h1, rfl⟩, rfl⟩

end Verif.Index
