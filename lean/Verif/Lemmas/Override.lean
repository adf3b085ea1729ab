import Verif.Model.Override
import Verif.Spec.Override
import Verif.Lemmas.StrX
import Verif.Lemmas.ListX
import Verif.Lemmas.Color
/-! Lemmas for C33, C34. -/
namespace Verif.Override
open Verif Verif.Spec.Ovr

theorem isDig_iff (c : Char) : isDig c = true ↔ Digit c := by
  simp only [isDig, Digit, Bool.and_eq_true, decide_eq_true_eq, Char.le_def, UInt32.le_iff_toNat_le]
  exact Iff.rfl

theorem isAlpha_iff (c : Char) : isAlpha c = true ↔ Letter c := by
  simp only [isAlpha, Letter, Bool.or_eq_true, Bool.and_eq_true, decide_eq_true_eq, Char.le_def, UInt32.le_iff_toNat_le]
  exact Iff.rfl

theorem size_one {c : Char} (h : c.toNat < 128) : c.utf8Size = 1 := by
  rw [utf8Size_eq]
  split
  · rfl
  · omega

theorem scanName_append (acc s : Str) : (scanName acc s).1 ++ (scanName acc s).2 = acc ++ s := by
  induction s generalizing acc with
  | nil => simp [scanName]
  | cons c s ih =>
    unfold scanName
    split
    · next h =>
      simp at h
      rw [ih, h.1]; simp
    · split
      · split
        · simp
        · rw [ih]; simp
      · rfl

/-- With a non-empty name so far. -/
theorem scanName_grow (acc s : Str) (h : acc ≠ []) :
    ∃ x, (scanName acc s).1 = acc ++ x ∧ (∀ c ∈ x, Letter c) ∧ True ∧
      ((∀ c, (scanName acc s).2.head? = some c → ¬ Letter c) ∨ (scanName acc s).1 = ['r'] ∨ (scanName acc s).1 = ['f', 'n']) := by
  induction s generalizing acc with
  | nil => exact ⟨[], by simp [scanName], by simp, by simp, .inl (by simp [scanName])⟩
  | cons c s ih =>
    unfold scanName
    simp only [h, decide_false, Bool.false_and, Bool.false_eq_true, if_false]
    by_cases ha : isAlpha c = true
    · simp only [ha, if_true]
      split
      · next hr =>
        exact ⟨[c], rfl, by simpa using (isAlpha_iff c).1 ha, by simp, .inr (by simpa using hr)⟩
      · obtain ⟨x, h1, h2, _, h4⟩ := ih (acc ++ [c]) (by simp)
        refine ⟨c :: x, by rw [h1]; simp, ?_, by simp, h4⟩
        intro d hd
        rcases List.mem_cons.1 hd with rfl | hd
        · exact (isAlpha_iff d).1 ha
        · exact h2 d hd
    · simp only [ha, if_false]
      refine ⟨[], by simp, by simp, by simp, .inl ?_⟩
      intro d hd
      simp at hd
      subst hd
      rw [← isAlpha_iff]; exact ha

theorem scanName_spec (s : Str) :
    ((scanName [] s).1 = [] ∧ (scanName [] s).2 = s ∧ ∀ c, s.head? = some c → ¬ Letter c ∧ ¬ Digit c) ∨
    (Name (scanName [] s).1 ∧ NameStops (scanName [] s).1 (scanName [] s).2) := by
  cases s with
  | nil => exact .inl ⟨rfl, rfl, by simp⟩
  | cons c s =>
    by_cases hd : isDig c = true
    · have e : scanName [] (c :: s) = scanName [c] s := by simp [scanName, hd]
      rw [e]
      obtain ⟨x, h1, h2, _, h4⟩ := scanName_grow [c] s (by simp)
      refine .inr ⟨⟨c, x, by rw [h1]; rfl, .inr ((isDig_iff c).1 hd), h2⟩, ?_⟩
      rcases h4 with h4 | h4 | h4
      · exact .inr (.inr h4)
      · exact .inl h4
      · exact .inr (.inl h4)
    · by_cases ha : isAlpha c = true
      · by_cases hr : [c] = "r".toList ∨ [c] = "fn".toList
        · have e : scanName [] (c :: s) = ([c], s) := by
            unfold scanName
            simp only [hd, Bool.and_false, Bool.false_eq_true, if_false, ha, if_true, List.nil_append]
            rw [if_pos hr]
          rw [e]
          refine .inr ⟨⟨c, [], rfl, .inl ((isAlpha_iff c).1 ha), by simp⟩, ?_⟩
          rcases hr with hr | hr
          · exact .inl hr
          · exact .inr (.inl hr)
        · have e : scanName [] (c :: s) = scanName [c] s := by
            conv => lhs; unfold scanName
            simp only [hd, Bool.and_false, Bool.false_eq_true, if_false, ha, if_true, List.nil_append]
            rw [if_neg hr]
          rw [e]
          obtain ⟨x, h1, h2, _, h4⟩ := scanName_grow [c] s (by simp)
          refine .inr ⟨⟨c, x, by rw [h1]; rfl, .inl ((isAlpha_iff c).1 ha), h2⟩, ?_⟩
          rcases h4 with h4 | h4 | h4
          · exact .inr (.inr h4)
          · exact .inl h4
          · exact .inr (.inl h4)
      · have e : scanName [] (c :: s) = ([], c :: s) := by simp [scanName, hd, ha]
        rw [e]
        refine .inl ⟨rfl, rfl, ?_⟩
        intro d hd'
        simp at hd'
        subst hd'
        rw [← isAlpha_iff, ← isDig_iff]
        exact ⟨ha, hd⟩

theorem scanParen_append (d : Int) (s : Str) : (scanParen d s).1 ++ (scanParen d s).2 = s := by
  induction s generalizing d with
  | nil => rfl
  | cons c s ih =>
    unfold scanParen
    split
    · simp [ih]
    · split
      · split
        · simp
        · simp [ih]
      · simp [ih]

theorem scanParen_spec (d : Nat) (s : Str) (hs : d = 0 → s.head? = some '(' ∨ s = []) :
    Closes d (scanParen d s).1 ∨ (scanParen d s).2 = [] := by
  induction s generalizing d with
  | nil => exact .inr rfl
  | cons c s ih =>
    unfold scanParen
    by_cases h1 : c = '('
    · subst h1
      simp only [if_true]
      have := ih (d + 1) (by omega)
      rcases this with h | h
      · exact .inl (.opn _ _ h)
      · exact .inr h
    · have hd : 0 < d := by
        rcases Nat.eq_zero_or_pos d with e | e
        · have := hs e
          simp [h1] at this
        · exact e
      by_cases h2 : c = ')'
      · subst h2
        simp only [show ¬ (')' = '(') by decide, if_false, if_true]
        by_cases h3 : (d : Int) - 1 = 0
        · simp only [h3, if_true]
          have : d = 1 := by omega
          subst this
          exact .inl .last
        · simp only [h3, if_false]
          obtain ⟨e, rfl⟩ : ∃ e, d = e + 1 := ⟨d - 1, by omega⟩
          have he : ((e + 1 : Nat) : Int) - 1 = (e : Nat) := by omega
          rw [he]
          rcases ih e (by omega) with h | h
          · exact .inl (.cls _ _ (by omega) h)
          · exact .inr h
      · simp only [h1, h2, if_false]
        rcases ih d (by omega) with h | h
        · exact .inl (.other _ _ _ h1 h2 h)
        · exact .inr h

theorem takeWhile_dropWhile_spec (s : Str) :
    '\\' ∉ s.takeWhile (· ≠ '\\') ∧ (s.dropWhile (· ≠ '\\') = [] ∨ (s.dropWhile (· ≠ '\\')).head? = some '\\') := by
  constructor
  · intro h
    have := mem_takeWhile _ h
    simp at this
  · induction s with
    | nil => exact .inl rfl
    | cons c s ih =>
      by_cases h : c = '\\'
      · subst h; exact .inr (by simp)
      · rw [List.dropWhile_cons]
        simp only [ne_eq, h, not_false_eq_true, decide_true, if_true]
        exact ih

theorem scanArgs_spec (name s : Str) :
    (scanArgs name s).1 ++ (scanArgs name s).2 = s ∧ Args name (scanArgs name s).1 (scanArgs name s).2 := by
  have gen : (name ≠ ['t'] ∨ s.head? ≠ some '(') →
      s.takeWhile (· ≠ '\\') ++ s.dropWhile (· ≠ '\\') = s ∧
        Args name (s.takeWhile (· ≠ '\\')) (s.dropWhile (· ≠ '\\')) := by
    intro h
    refine ⟨List.takeWhile_append_dropWhile, .inr ⟨?_, takeWhile_dropWhile_spec s⟩⟩
    rcases h with h | h
    · exact .inl h
    · right
      cases s with
      | nil => simp
      | cons c s =>
        rw [List.takeWhile_cons]
        split
        · simpa using h
        · simp
  unfold scanArgs
  split
  · next s' =>
    split
    · next hn =>
      refine ⟨scanParen_append _ _, .inl ⟨hn, ?_, scanParen_spec 0 _ (by simp)⟩⟩
      simp [scanParen]
    · next hn => exact gen (.inl hn)
  · next hh =>
    refine gen (.inr ?_)
    intro e
    cases s with
    | nil => simp at e
    | cons c s => simp at e; subst e; exact hh s rfl

/-- How the parser reads a block from position `pos`: the tags and the offsets of the empty ones. -/
inductive Reads : Nat → Str → List Tag → List Nat → Prop
  | nil (pos) : Reads pos [] [] []
  | char (pos c s ts ds) (hc : c ≠ '\\') (h : Reads (pos + c.utf8Size) s ts ds) : Reads pos (c :: s) ts ds
  | tag (pos n a s ts ds) (hn : Name n) (hs : NameStops n (a ++ s)) (ha : Args n a s)
      (h : Reads (pos + 1 + byteLen n + byteLen a) s ts ds) : Reads pos ('\\' :: n ++ a ++ s) (⟨n, a, pos⟩ :: ts) ds
  | last (pos) : Reads pos ['\\'] [] [pos]
  | empty (pos c s ts ds) (hc : ¬ Letter c ∧ ¬ Digit c) (h1 : c.utf8Size = 1) (h : Reads (pos + 1 + c.utf8Size) s ts ds) :
      Reads pos ('\\' :: c :: s) ts (pos :: ds)

theorem Name.not_blank {n : Str} (h : Name n) : trim n ≠ [] := by
  obtain ⟨c, t, rfl, hc, ht⟩ := h
  have nw : ∀ c, Letter c ∨ Digit c → isWs c = false := by
    intro c hc
    unfold Letter Digit at hc
    unfold isWs
    simp only [Bool.or_eq_false_iff, Bool.and_eq_false_iff, decide_eq_false_iff_not, beq_eq_false_iff_ne]
    omega
  have hall : ∀ d ∈ c :: t, isWs d = false := by
    intro d hd
    rcases List.mem_cons.1 hd with rfl | hd
    · exact nw d hc
    · exact nw d (.inl (ht d hd))
  rw [Color.trim_of_edges]
  · simp
  · intro d hd; exact hall d (List.mem_of_head? hd)
  · intro d hd; exact hall d (List.mem_of_getLast? hd)

theorem emptySpan_some {c : Char} {s sp : Str} (h : emptySpan (c :: s) = some sp) : c.utf8Size = 1 ∧ sp = ['\\', c] := by
  unfold emptySpan at h
  have hs : '\\'.utf8Size = 1 := by decide
  have hp := utf8Size_pos c
  have : min 2 (byteLen ('\\' :: c :: s)) = 1 + 1 := by
    simp only [byteLen_cons, hs]; omega
  rw [this] at h
  simp only [takeBytes, hs, Nat.add_sub_cancel, Nat.reduceLeDiff, if_true] at h
  by_cases h1 : c.utf8Size ≤ 1
  · have h2 : c.utf8Size = 1 := by omega
    simp [h2, takeBytes] at h
    exact ⟨h2, h.symm⟩
  · simp [h1] at h

theorem emptySpan_of_one {c : Char} {s : Str} (h : c.utf8Size = 1) : emptySpan (c :: s) = some ['\\', c] := by
  unfold emptySpan
  have hs : '\\'.utf8Size = 1 := by decide
  have : min 2 (byteLen ('\\' :: c :: s)) = 1 + 1 := by
    simp only [byteLen_cons, hs]; omega
  rw [this]
  simp [takeBytes, hs, h]

theorem emptySpan_nil : emptySpan [] = some ['\\'] := by decide

theorem addTag_ok {t : Tag} {r : Outcome Out} {o : Out} (h : addTag t r = .ok o) :
    ∃ o', r = .ok o' ∧ o.tags = t :: o'.tags ∧ o.diags = o'.diags := by
  cases r with
  | ok o' => simp [addTag] at h; exact ⟨o', rfl, by rw [← h], by rw [← h]⟩
  | err => simp [addTag] at h
  | panic => simp [addTag] at h

theorem addDiag_ok {d : Diag} {r : Outcome Out} {o : Out} (h : addDiag d r = .ok o) :
    ∃ o', r = .ok o' ∧ o.tags = o'.tags ∧ o.diags = d :: o'.diags := by
  cases r with
  | ok o' => simp [addDiag] at h; exact ⟨o', rfl, by rw [← h], by rw [← h]⟩
  | err => simp [addDiag] at h
  | panic => simp [addDiag] at h

theorem blockLoop_reads (k : Nat) : ∀ (pos : Nat) (s : Str) (o : Out), s.length ≤ k → blockLoop k pos s = .ok o →
    Reads pos s o.tags (o.diags.map (·.offset)) := by
  induction k with
  | zero =>
    intro pos s o hl h
    have : s = [] := List.length_eq_zero_iff.1 (by omega)
    subst this
    simp [blockLoop] at h
    subst h
    exact .nil _
  | succ k ih =>
    intro pos s o hl h
    cases s with
    | nil => simp [blockLoop] at h; subst h; exact .nil _
    | cons c s =>
      unfold blockLoop at h
      by_cases hc : c = '\\'
      · subst hc
        simp only [if_true] at h
        have hap := scanName_append [] s
        rcases scanName_spec s with ⟨h1, h2, h3⟩ | ⟨h1, h2⟩
        · simp only [h1, h2, ne_eq, not_true_eq_false, if_false] at h
          cases s with
          | nil =>
            rw [emptySpan_nil] at h
            simp [addDiag] at h
            subst h
            exact .last _
          | cons d s =>
            cases he : emptySpan (d :: s) with
            | none => rw [he] at h; simp at h
            | some sp =>
              rw [he] at h
              simp only at h
              obtain ⟨o', e1, e2, e3⟩ := addDiag_ok h
              have := ih _ _ _ (by simp at hl ⊢; omega) e1
              rw [e2, e3, List.map_cons]
              exact .empty _ _ _ _ _ (h3 d rfl) (emptySpan_some he).1 this
        · have hne : (scanName [] s).1 ≠ [] := by
            obtain ⟨c, t, e, _⟩ := h1
            rw [e]; simp
          obtain ⟨a1, a2⟩ := scanArgs_spec (scanName [] s).1 (scanName [] s).2
          simp only [ne_eq, hne, not_false_eq_true, if_true, Name.not_blank h1, if_false] at h
          obtain ⟨o', e1, e2, e3⟩ := addTag_ok h
          have hlen : (scanArgs (scanName [] s).1 (scanName [] s).2).2.length ≤ k := by
            have := congrArg List.length a1
            have h' := congrArg List.length hap
            simp at this h' hl
            omega
          have := ih _ _ _ hlen e1
          rw [e2, e3]
          have hs : '\\' :: s = '\\' :: (scanName [] s).1 ++ (scanArgs (scanName [] s).1 (scanName [] s).2).1 ++
              (scanArgs (scanName [] s).1 (scanName [] s).2).2 := by
            simp only [List.cons_append, List.append_assoc, a1]
            rw [hap]; rfl
          conv => arg 2; rw [hs]
          exact .tag _ _ _ _ _ _ h1 (by rw [a1]; exact h2) a2 this
      · rw [if_neg hc] at h
        exact .char _ _ _ _ _ hc (ih _ _ _ (by simpa using hl) h)

/-- The parser does not crash when no backslash is followed by a character of several bytes. -/
theorem blockLoop_total (k : Nat) : ∀ (pos : Nat) (s : Str),
    (∀ a c b, s = a ++ '\\' :: c :: b → c.utf8Size = 1) → ∃ o, blockLoop k pos s = .ok o := by
  induction k with
  | zero => intro pos s _; cases s <;> exact ⟨_, rfl⟩
  | succ k ih =>
    intro pos s hs
    cases s with
    | nil => exact ⟨_, rfl⟩
    | cons c s =>
      unfold blockLoop
      by_cases hc : c = '\\'
      · subst hc
        simp only [if_true]
        have hap := scanName_append [] s
        rcases scanName_spec s with ⟨h1, h2, h3⟩ | ⟨h1, h2⟩
        · simp only [h1, h2, ne_eq, not_true_eq_false, if_false]
          cases s with
          | nil => rw [emptySpan_nil]; exact ⟨_, rfl⟩
          | cons d s =>
            rw [emptySpan_of_one (hs [] d s rfl)]
            simp only
            obtain ⟨o, ho⟩ := ih (pos + 1 + d.utf8Size) s (fun a c b e => hs ('\\' :: d :: a) c b (by rw [e]; rfl))
            rw [ho]; exact ⟨_, rfl⟩
        · have hne : (scanName [] s).1 ≠ [] := by
            obtain ⟨c, t, e, _⟩ := h1
            rw [e]; simp
          obtain ⟨a1, a2⟩ := scanArgs_spec (scanName [] s).1 (scanName [] s).2
          simp only [ne_eq, hne, not_false_eq_true, if_true, Name.not_blank h1, if_false]
          have hs' : ('\\' :: (scanName [] s).1 ++ (scanArgs (scanName [] s).1 (scanName [] s).2).1) ++
              (scanArgs (scanName [] s).1 (scanName [] s).2).2 = '\\' :: s := by
            simp only [List.cons_append, List.append_assoc, a1]
            rw [hap]; rfl
          obtain ⟨o, ho⟩ := ih (pos + 1 + byteLen (scanName [] s).1 + byteLen (scanArgs (scanName [] s).1 (scanName [] s).2).1)
            (scanArgs (scanName [] s).1 (scanName [] s).2).2
            (fun a c b e => hs (('\\' :: (scanName [] s).1 ++ (scanArgs (scanName [] s).1 (scanName [] s).2).1) ++ a) c b
              (by rw [← hs', e]; simp only [List.append_assoc]))
          rw [ho]; exact ⟨_, rfl⟩
      · rw [if_neg hc]
        exact ih _ _ (fun a d b e => hs (c :: a) d b (by rw [e]; rfl))

theorem Reads.ge {pos : Nat} {s : Str} {ts : List Tag} {ds : List Nat} (h : Reads pos s ts ds) :
    (∀ t ∈ ts, pos ≤ t.pos) ∧ ∀ d ∈ ds, pos ≤ d := by
  induction h with
  | nil => simp
  | char pos c s ts ds hc h ih =>
    exact ⟨fun t ht => Nat.le_trans (Nat.le_add_right _ _) (ih.1 t ht), fun d hd => Nat.le_trans (Nat.le_add_right _ _) (ih.2 d hd)⟩
  | tag pos n a s ts ds hn hs ha h ih =>
    refine ⟨?_, fun d hd => by have := ih.2 d hd; omega⟩
    intro t ht
    rcases List.mem_cons.1 ht with rfl | ht
    · exact Nat.le_refl _
    · have := ih.1 t ht; omega
  | last pos => simp
  | empty pos c s ts ds hc h1 h ih =>
    refine ⟨fun t ht => by have := ih.1 t ht; omega, ?_⟩
    intro d hd
    rcases List.mem_cons.1 hd with rfl | hd
    · exact Nat.le_refl _
    · have := ih.2 d hd; omega

theorem Reads.ordered {pos : Nat} {s : Str} {ts : List Tag} {ds : List Nat} (h : Reads pos s ts ds) :
    ts.Pairwise (fun t u => t.pos + 1 + byteLen t.name + byteLen t.args ≤ u.pos) := by
  induction h with
  | nil => exact .nil
  | char _ _ _ _ _ _ _ ih => exact ih
  | tag pos n a s ts ds hn hs ha h ih => exact .cons (fun t ht => h.ge.1 t ht) ih
  | last => exact .nil
  | empty _ _ _ _ _ _ _ _ ih => exact ih

theorem Reads.located {pos : Nat} {s : Str} {ts : List Tag} {ds : List Nat} (h : Reads pos s ts ds) :
    ∀ t ∈ ts, ∃ a b, s = a ++ '\\' :: t.name ++ t.args ++ b ∧ t.pos = pos + byteLen a ∧ Name t.name ∧
      NameStops t.name (t.args ++ b) ∧ Args t.name t.args b := by
  induction h with
  | nil => simp
  | char pos c s ts ds hc h ih =>
    intro t ht
    obtain ⟨a, b, e1, e2, e3⟩ := ih t ht
    exact ⟨c :: a, b, by rw [e1]; rfl, by rw [e2, byteLen_cons]; omega, e3⟩
  | tag pos n a s ts ds hn hs ha h ih =>
    intro t ht
    rcases List.mem_cons.1 ht with rfl | ht
    · exact ⟨[], s, rfl, rfl, hn, hs, ha⟩
    · obtain ⟨a', b, e1, e2, e3⟩ := ih t ht
      refine ⟨'\\' :: n ++ a ++ a', b, by rw [e1]; simp, ?_, e3⟩
      rw [e2]; simp [show '\\'.utf8Size = 1 by decide]; omega
  | last => simp
  | empty pos c s ts ds hc h1 h ih =>
    intro t ht
    obtain ⟨a, b, e1, e2, e3⟩ := ih t ht
    refine ⟨'\\' :: c :: a, b, by rw [e1]; rfl, ?_, e3⟩
    rw [e2]; simp [show '\\'.utf8Size = 1 by decide]; omega

/-- Every backslash is accounted for. -/
theorem Reads.complete {pos : Nat} {s : Str} {ts : List Tag} {ds : List Nat} (h : Reads pos s ts ds) :
    ∀ a b, s = a ++ '\\' :: b →
      (∃ t ∈ ts, t.pos = pos + byteLen a) ∨ pos + byteLen a ∈ ds ∨
      (∃ d ∈ ds, pos + byteLen a = d + 1) ∨
      (∃ t ∈ ts, t.name = ['t'] ∧ t.pos + 2 < pos + byteLen a ∧ pos + byteLen a < t.pos + 2 + byteLen t.args) := by
  have b1 : '\\'.utf8Size = 1 := by decide
  induction h with
  | nil => intro a b e; simp at e
  | char pos c s ts ds hc h ih =>
    intro a b e
    cases a with
    | nil => simp at e; exact absurd e.1 hc
    | cons x a =>
      simp at e
      obtain ⟨rfl, e⟩ := e
      have := ih a b e
      rw [byteLen_cons, ← Nat.add_assoc]
      exact this
  | tag pos n x s ts ds hn hs ha h ih =>
    intro a b e
    cases a with
    | nil => exact .inl ⟨⟨n, x, pos⟩, List.mem_cons_self, by simp⟩
    | cons y a =>
      simp at e
      obtain ⟨rfl, e⟩ := e
      rw [byteLen_cons, b1]
      -- the name has no backslash
      have hnn : '\\' ∉ n := by
        obtain ⟨c, t, rfl, hc, ht⟩ := hn
        intro hm
        rcases List.mem_cons.1 hm with rfl | hm
        · unfold Letter Digit at hc
          have : '\\'.toNat = 92 := by decide
          omega
        · have := ht _ hm
          unfold Letter at this
          have : '\\'.toNat = 92 := by decide
          omega
      rcases List.append_eq_append_iff.1 e with ⟨y, e1, e2⟩ | ⟨y, e1, e2⟩
      · -- after the name
        rcases List.append_eq_append_iff.1 e2 with ⟨z, e3, e4⟩ | ⟨z, e3, e4⟩
        · -- after the arguments
          have := ih z b e4
          have hb : pos + (1 + byteLen a) = pos + 1 + byteLen n + byteLen x + byteLen z := by
            rw [e1, e3]; simp; omega
          rw [hb]
          rcases this with ⟨t, ht, e⟩ | h | h | ⟨t, ht, e⟩
          · exact .inl ⟨t, by simp [ht], e⟩
          · exact .inr (.inl h)
          · exact .inr (.inr (.inl h))
          · exact .inr (.inr (.inr ⟨t, by simp [ht], e⟩))
        · cases z with
          | nil =>
            have := ih [] b (by simpa using e4.symm)
            have hb : pos + (1 + byteLen a) = pos + 1 + byteLen n + byteLen x + byteLen [] := by
              rw [e1]; simp at e3; rw [e3]; simp; omega
            rw [hb]
            rcases this with ⟨t, ht, e⟩ | h | h | ⟨t, ht, e⟩
            · exact .inl ⟨t, by simp [ht], e⟩
            · exact .inr (.inl h)
            · exact .inr (.inr (.inl h))
            · exact .inr (.inr (.inr ⟨t, by simp [ht], e⟩))
          | cons w z =>
            simp at e4
            obtain ⟨rfl, e4⟩ := e4
            -- inside the arguments
            rcases ha with ⟨rfl, hx, _⟩ | ⟨_, hx, _⟩
            · refine .inr (.inr (.inr ⟨⟨['t'], x, pos⟩, by simp, rfl, ?_, ?_⟩))
              · simp only
                have hy : y ≠ [] := by
                  rintro rfl
                  simp at e3
                  rw [e3] at hx; simp at hx
                have : 0 < byteLen y := by
                  have h1 := length_le_byteLen y
                  have h2 := List.length_pos_iff.2 hy
                  omega
                rw [e1]; simp [show 't'.utf8Size = 1 by decide]; omega
              · simp only
                rw [e1, e3]; simp [show 't'.utf8Size = 1 by decide, b1]; omega
            · exact absurd (by rw [e3]; simp) hx
      · cases y with
        | nil =>
          simp at e1 e2
          subst e1
          -- the first character of the arguments or of the rest
          cases x with
          | nil =>
            have := ih [] b (by simpa using e2.symm)
            have hb : pos + (1 + byteLen n) = pos + 1 + byteLen n + byteLen [] + byteLen [] := by simp; omega
            rw [hb]
            rcases this with ⟨t, ht, e⟩ | h | h | ⟨t, ht, e⟩
            · exact .inl ⟨t, by simp [ht], e⟩
            · exact .inr (.inl h)
            · exact .inr (.inr (.inl h))
            · exact .inr (.inr (.inr ⟨t, by simp [ht], e⟩))
          | cons w x =>
            simp at e2
            obtain ⟨rfl, e2⟩ := e2
            rcases ha with ⟨_, hx, _⟩ | ⟨_, hx, _⟩
            · simp at hx
            · simp at hx
        | cons w y =>
          simp at e2
          exact absurd (by rw [e1, ← e2.1]; simp) hnn
  | last pos =>
    intro a b e
    cases a with
    | nil => exact .inr (.inl (by simp))
    | cons x a => simp at e
  | empty pos c s ts ds hc h1 h ih =>
    intro a b e
    cases a with
    | nil => exact .inr (.inl (by simp))
    | cons x a =>
      simp at e
      obtain ⟨rfl, e⟩ := e
      cases a with
      | nil =>
        refine .inr (.inr (.inl ⟨pos, by simp, ?_⟩))
        simp [b1]
      | cons y a =>
        simp at e
        obtain ⟨rfl, e⟩ := e
        have := ih a b e
        have hb : pos + byteLen ('\\' :: c :: a) = pos + 1 + c.utf8Size + byteLen a := by
          simp [b1]; omega
        rw [hb]
        rcases this with h | h | ⟨d, hd, e⟩ | h
        · exact .inl h
        · exact .inr (.inl (by simp [h]))
        · exact .inr (.inr (.inl ⟨d, by simp [hd], e⟩))
        · exact .inr (.inr (.inr h))

theorem isDigit_iff (c : Char) : c.isDigit = true ↔ Digit c := by
  simp only [Char.isDigit, Digit, Bool.and_eq_true, decide_eq_true_eq, GE.ge, UInt32.le_iff_toNat_le]
  exact Iff.rfl

theorem parseI32_iff {num : Str} (h : ∀ c ∈ num, Digit c ∨ c = '-') (n : Int) :
    parseI32 num = some n ↔ Number num n := by
  have dd : ¬ Digit '-' := by unfold Digit; decide
  cases num with
  | nil =>
    constructor
    · intro h; simp [parseI32, parseUnsigned] at h
    · rintro ⟨ds, hd, _, ⟨e, _⟩ | ⟨e, _⟩⟩
      · exact absurd e.symm hd
      · simp at e
  | cons c t =>
    by_cases hc : c = '-'
    · subst hc
      constructor
      · intro hp
        unfold parseI32 at hp
        cases t with
        | nil => simp at hp
        | cons d t =>
          simp only at hp
          cases hv : digitsVal 10 0 (d :: t) with
          | none => rw [hv] at hp; simp at hp
          | some v =>
            rw [hv] at hp
            simp only at hp
            obtain ⟨h1, h2⟩ := digits_of_digitsVal hv
            by_cases hb : v ≤ 2 ^ 31
            · rw [if_pos hb] at hp
              simp at hp
              refine ⟨d :: t, by simp, fun x hx => (isDigit_iff x).1 (h1 x hx), .inr ⟨rfl, ?_, ?_⟩⟩
              · rw [h2, hp]
              · rw [← hp]; omega
            · rw [if_neg hb] at hp; simp at hp
      · rintro ⟨ds, hd, hall, ⟨e, _⟩ | ⟨e, e2, e3⟩⟩
        · exact absurd (hall '-' (by rw [← e]; simp)) dd
        · simp at e
          subst e
          cases t with
          | nil => exact absurd rfl hd
          | cons d t =>
            unfold parseI32
            simp only
            rw [digitsVal_of_digits (fun x hx => (isDigit_iff x).2 (hall x hx))]
            simp only
            rw [if_pos (by omega), e2]
    · have e0 : parseI32 (c :: t) = match parseUnsigned 10 (2 ^ 31) (c :: t) with
          | some v => some (v : Int)
          | none => none := by
        unfold parseI32
        split
        · next heq => simp at heq; exact absurd heq.1 hc
        · rfl
      rw [e0]
      constructor
      · intro hp
        cases hv : parseUnsigned 10 (2 ^ 31) (c :: t) with
        | none => rw [hv] at hp; simp at hp
        | some v =>
          rw [hv] at hp
          simp at hp
          have hplus : c ≠ '+' := by
            rintro rfl
            have := h '+' (by simp)
            have d2 : ¬ Digit '+' := by unfold Digit; decide
            rcases this with h | h
            · exact d2 h
            · exact absurd h (by decide)
          have em : parseUnsigned 10 (2 ^ 31) (c :: t) = match digitsVal 10 0 (c :: t) with
              | some v => if v < 2 ^ 31 then some v else none
              | none => none := by
            unfold parseUnsigned
            split
            · next e => injection e with e _; exact absurd e hplus
            · rfl
          rw [em] at hv
          cases hw : digitsVal 10 0 (c :: t) with
          | none => rw [hw] at hv; simp at hv
          | some w =>
            rw [hw] at hv
            simp only at hv
            obtain ⟨h1, h2⟩ := digits_of_digitsVal hw
            by_cases hb : w < 2 ^ 31
            · rw [if_pos hb] at hv
              simp at hv
              refine ⟨c :: t, by simp, fun x hx => (isDigit_iff x).1 (h1 x hx), .inl ⟨rfl, ?_, ?_⟩⟩
              · rw [h2, hv, hp]
              · rw [← hp, ← hv]; omega
            · rw [if_neg hb] at hv; simp at hv
      · rintro ⟨ds, hd, hall, ⟨e, e2, e3⟩ | ⟨e, _⟩⟩
        · subst e
          rw [parseUnsigned_digits hd (fun x hx => (isDigit_iff x).2 (hall x hx)), if_pos (by omega)]
          simp [e2]
        · simp at e; exact absurd e.1 hc

theorem _root_.Verif.Spec.Ovr.Number.chars {num : Str} {n : Int} (h : Number num n) : ∀ c ∈ num, Digit c ∨ c = '-' := by
  obtain ⟨ds, _, hall, ⟨rfl, _⟩ | ⟨rfl, _⟩⟩ := h
  · exact fun c hc => .inl (hall c hc)
  · intro c hc
    rcases List.mem_cons.1 hc with rfl | hc
    · exact .inr rfl
    · exact .inl (hall c hc)

def runChar (d : Char) : Bool := isDig d || d == '-'

theorem runChar_iff (c : Char) : runChar c = true ↔ Digit c ∨ c = '-' := by
  unfold runChar
  rw [Bool.or_eq_true, isDig_iff, beq_iff_eq]

theorem runChar_bs : ¬ (Digit '\\' ∨ '\\' = '-') := by unfold Digit; decide

theorem run_unique (r num rest : Str) (e : r = num ++ rest) (h1 : ∀ c ∈ num, Digit c ∨ c = '-')
    (h2 : ∀ c, rest.head? = some c → ¬ (Digit c ∨ c = '-')) :
    num = r.takeWhile runChar ∧ rest = r.dropWhile runChar := by
  subst e
  induction num with
  | nil =>
    cases rest with
    | nil => simp
    | cons c s =>
      have : runChar c = false := by
        rw [Bool.eq_false_iff]; intro h; exact h2 c rfl ((runChar_iff c).1 h)
      simp [List.takeWhile_cons, List.dropWhile_cons, this]
  | cons c num ih =>
    have : runChar c = true := (runChar_iff c).2 (h1 c (by simp))
    have ih := ih (fun x hx => h1 x (by simp [hx]))
    simp only [List.cons_append, List.takeWhile_cons, List.dropWhile_cons, this, if_true]
    exact ⟨by rw [← ih.1], ih.2⟩

theorem head_dropWhile (r : Str) : ∀ c, (r.dropWhile runChar).head? = some c → ¬ (Digit c ∨ c = '-') := by
  induction r with
  | nil => simp
  | cons d r ih =>
    intro c hc
    rw [List.dropWhile_cons] at hc
    split at hc
    · exact ih c hc
    · next h =>
      simp at hc
      subst hc
      rw [← runChar_iff]; exact h

theorem _root_.Verif.Spec.Ovr.DrawTag.cons {c : Char} {s a : Str} {n : Int} (h : DrawTag s a n) : DrawTag (c :: s) (c :: a) n := by
  obtain ⟨num, rest, e, h1, h2⟩ := h
  exact ⟨num, rest, by rw [e]; rfl, h1, h2⟩

theorem _root_.Verif.Spec.Ovr.DrawTag.append {s a : Str} {n : Int} (p : Str) (h : DrawTag s a n) : DrawTag (p ++ s) (p ++ a) n := by
  obtain ⟨num, rest, e, h1, h2⟩ := h
  exact ⟨num, rest, by rw [e]; simp, h1, h2⟩

/-- Drawing tags behind a first `\p` and its run. -/
theorem _root_.Verif.Spec.Ovr.DrawTag.after {r a : Str} {n : Int} (h : DrawTag ('\\' :: 'p' :: r) a n) :
    (a = [] ∧ Number (r.takeWhile runChar) n) ∨
    (∃ a', a = '\\' :: 'p' :: r.takeWhile runChar ++ a' ∧ DrawTag (r.dropWhile runChar) a' n) := by
  obtain ⟨num, rest, e, h1, h2⟩ := h
  cases a with
  | nil =>
    simp at e
    have := run_unique r num rest e h1.chars h2
    exact .inl ⟨rfl, this.1 ▸ h1⟩
  | cons x a =>
    simp at e
    obtain ⟨rfl, e⟩ := e
    cases a with
    | nil => simp at e
    | cons y a =>
      simp at e
      obtain ⟨rfl, e⟩ := e
      right
      have hr : r = r.takeWhile runChar ++ r.dropWhile runChar := List.takeWhile_append_dropWhile.symm
      rw [hr] at e
      rcases List.append_eq_append_iff.1 e with ⟨z, e1, e2⟩ | ⟨z, e1, e2⟩
      · exact ⟨z, by rw [e1]; simp, num, rest, by rw [e2]; simp, h1, h2⟩
      · cases z with
        | nil =>
          simp at e1 e2
          exact ⟨[], by rw [e1]; simp, num, rest, by rw [← e2]; simp, h1, h2⟩
        | cons w z =>
          simp at e2
          have : w ∈ r.takeWhile runChar := by rw [e1]; simp
          rw [← e2.1] at this
          exact absurd ((runChar_iff _).1 (mem_takeWhile _ this)) runChar_bs

theorem drawLoop_spec (k : Nat) : ∀ (s : Str) (m : Bool), s.length ≤ k → ModeAfter s m (drawLoop k s m) := by
  have nilCase : ∀ m, ModeAfter [] m m := by
    intro m
    refine .inl ⟨?_, rfl⟩
    rintro a n ⟨num, rest, e, _⟩
    simp at e
  induction k with
  | zero =>
    intro s m hl
    have : s = [] := List.length_eq_zero_iff.1 (by omega)
    subst this
    exact nilCase m
  | succ k ih =>
    intro s m hl
    cases s with
    | nil => exact nilCase m
    | cons c s =>
      unfold drawLoop
      cases hp : stripPrefix "\\p".toList (c :: s) with
      | none =>
        simp only
        have hno : ∀ t, c :: s ≠ '\\' :: 'p' :: t := stripPrefix_eq_none.1 hp
        have back : ∀ a n, DrawTag (c :: s) a n → ∃ a', a = c :: a' ∧ DrawTag s a' n := by
          rintro a n ⟨num, rest, e, h1, h2⟩
          cases a with
          | nil => exact absurd e (hno _)
          | cons x a =>
            simp at e
            exact ⟨a, by rw [e.1], num, rest, by simpa using e.2, h1, h2⟩
        rcases ih s m (by simpa using hl) with ⟨h1, h2⟩ | ⟨a, n, h1, h2, h3⟩
        · refine .inl ⟨?_, h2⟩
          intro a n h
          obtain ⟨a', _, h'⟩ := back a n h
          exact h1 a' n h'
        · refine .inr ⟨c :: a, n, h1.cons, ?_, h3⟩
          intro b n' h
          obtain ⟨b', rfl, h'⟩ := back b n' h
          have := h2 b' n' h'
          simpa using this
      | some r =>
        have e : c :: s = '\\' :: 'p' :: r := stripPrefix_iff.1 hp
        simp only
        have er : (fun d => isDig d || d == '-') = runChar := rfl
        rw [er, e]
        have hlen : (r.dropWhile runChar).length ≤ k := by
          have h1 := congrArg List.length (List.takeWhile_append_dropWhile (p := runChar) (l := r))
          have h2 := congrArg List.length e
          simp only [List.length_append, List.length_cons] at h1 h2 hl
          omega
        have hch : ∀ c ∈ r.takeWhile runChar, Digit c ∨ c = '-' := fun c hc => (runChar_iff c).1 (mem_takeWhile c hc)
        rcases ih (r.dropWhile runChar) (setMode (r.takeWhile runChar) m) hlen with ⟨h1, h2⟩ | ⟨a, n, h1, h2, h3⟩
        · rw [h2]
          cases hv : parseI32 (r.takeWhile runChar) with
          | none =>
            refine .inl ⟨?_, by simp [setMode, hv]⟩
            intro a n h
            rcases h.after with ⟨_, hn⟩ | ⟨a', _, h'⟩
            · rw [(parseI32_iff hch n).2 hn] at hv; simp at hv
            · exact h1 _ _ h'
          | some v =>
            have hn := (parseI32_iff hch v).1 hv
            refine .inr ⟨[], v, ⟨_, r.dropWhile runChar, by simp, hn, head_dropWhile r⟩, ?_, by simp [setMode, hv]⟩
            intro b n' h
            rcases h.after with ⟨e, _⟩ | ⟨a', _, h'⟩
            · simp [e]
            · exact absurd h' (h1 _ _)
        · refine .inr ⟨'\\' :: 'p' :: r.takeWhile runChar ++ a, n, ?_, ?_, h3⟩
          · have := h1.append ('\\' :: 'p' :: r.takeWhile runChar)
            simpa using this
          · intro b n' h
            rcases h.after with ⟨e, _⟩ | ⟨b', e, h'⟩
            · simp [e]
            · have := h2 b' n' h'
              rw [e]; simp; omega

theorem _root_.Verif.Spec.Ovr.Number.unique {num : Str} {n n' : Int} (h : Number num n) (h' : Number num n') : n = n' := by
  have := (parseI32_iff h.chars n).2 h
  rw [(parseI32_iff h.chars n').2 h'] at this
  simpa using this.symm

/-- The mode after a block is determined. -/
theorem _root_.Verif.Spec.Ovr.ModeAfter.unique {s : Str} {m x y : Bool} (h : ModeAfter s m x) (h' : ModeAfter s m y) : x = y := by
  rcases h with ⟨h1, h2⟩ | ⟨a, n, h1, h2, h3⟩
  · rcases h' with ⟨_, h2'⟩ | ⟨a, n, h1', _⟩
    · rw [h2, h2']
    · exact absurd h1' (h1 _ _)
  · rcases h' with ⟨h1', _⟩ | ⟨b, n', h1', h2', h3'⟩
    · exact absurd h1 (h1' _ _)
    · have hl : a.length = b.length := by
        have := h2 _ _ h1'; have := h2' _ _ h1; omega
      obtain ⟨num, rest, e, g1, g2⟩ := h1
      obtain ⟨num', rest', e', g1', g2'⟩ := h1'
      rw [e] at e'
      simp only [List.append_assoc] at e'
      obtain ⟨ea, eb⟩ := List.append_inj e' hl
      simp at eb
      obtain ⟨r1, _⟩ := run_unique (num ++ rest) num rest rfl g1.chars g2
      obtain ⟨r2, _⟩ := run_unique (num ++ rest) num' rest' eb g1'.chars g2'
      have : num = num' := by rw [r1, r2]
      subst this
      have := g1.unique g1'
      subst this
      rw [Bool.eq_iff_iff, h3, h3']

/-- A closed block is read as such. -/
theorem scanBlock_closed {d : Nat} {content : Str} (h : Balanced d content) (s : Str) :
    scanBlock d (content ++ '}' :: s) = .ok (content, true, s) := by
  induction h with
  | done => simp [scanBlock]
  | opn d c hd h ih =>
    simp only [List.cons_append, scanBlock, if_true]
    rw [if_neg (by omega), ih]
  | cls d c hd h ih =>
    simp only [List.cons_append, scanBlock, show ¬ ('}' = '{') by decide, if_false, if_true]
    rw [if_neg (by omega), Nat.add_sub_cancel, ih]
  | other d x c h1 h2 h ih =>
    simp only [List.cons_append, scanBlock, h1, h2, if_false]
    rw [ih]

/-- What `scanBlock` reads is there. -/
theorem scanBlock_ok (s : Str) : ∀ (d : Nat) (b r : Str) (cl : Bool), scanBlock d s = .ok (b, cl, r) →
    s = b ++ (if cl then ['}'] else []) ++ r ∧ (cl = false → r = []) := by
  induction s with
  | nil => intro d b r cl h; simp [scanBlock] at h; obtain ⟨rfl, rfl, rfl⟩ := h; simp
  | cons c s ih =>
    intro d b r cl h
    have step : ∀ d', (match scanBlock d' s with | .ok (b, cl, r) => Outcome.ok (c :: b, cl, r) | r => r) = .ok (b, cl, r) →
        c :: s = b ++ (if cl then ['}'] else []) ++ r ∧ (cl = false → r = []) := by
      intro d' h
      cases hs : scanBlock d' s with
      | ok p =>
        obtain ⟨b', cl', r'⟩ := p
        rw [hs] at h
        simp only [Outcome.ok.injEq, Prod.mk.injEq] at h
        obtain ⟨rfl, rfl, rfl⟩ := h
        have := ih d' b' r' cl' hs
        exact ⟨by conv => lhs; rw [this.1]
                  rfl, this.2⟩
      | err => rw [hs] at h; simp at h
      | panic => rw [hs] at h; simp at h
    unfold scanBlock at h
    split at h
    · split at h
      · simp at h
      · exact step _ h
    · split at h
      · next hc =>
        split at h
        · simp at h
          obtain ⟨rfl, rfl, rfl⟩ := h
          simp [hc]
        · exact step _ h
      · exact step _ h

theorem prependText_ok {t : Str} {r : Outcome Analysis} {a : Analysis} (h : prependText t r = .ok a) :
    ∃ a', r = .ok a' ∧ a.plain = t ++ a'.plain ∧ a.tags = a'.tags ∧ a.diags = a'.diags := by
  cases r with
  | ok a' => simp [prependText] at h; exact ⟨a', rfl, by rw [← h], by rw [← h], by rw [← h]⟩
  | err => simp [prependText] at h
  | panic => simp [prependText] at h

theorem prependOut_ok {o : Out} {r : Outcome Analysis} {a : Analysis} (h : prependOut o r = .ok a) :
    ∃ a', r = .ok a' ∧ a.plain = a'.plain ∧ a.tags = o.tags ++ a'.tags ∧ a.diags = o.diags ++ a'.diags := by
  cases r with
  | ok a' => simp [prependOut] at h; exact ⟨a', rfl, by rw [← h], by rw [← h], by rw [← h]⟩
  | err => simp [prependOut] at h
  | panic => simp [prependOut] at h

/-- What happens to a block, in one step. -/
theorem textLoop_block {k pos : Nat} {m : Bool} {s : Str} {a : Analysis} (h : textLoop (k + 1) pos m ('{' :: s) = .ok a) :
    ∃ content closed r tc o m', scanBlock 1 s = .ok (content, closed, r) ∧
      (∃ q, content = tc ++ q) ∧ (closed = true → content ≠ [] → tc = content) ∧
      ((parseBlock tc (pos + 1) = .ok o ∧ m' = drawMode tc m ∧ content ≠ []) ∨ (o.tags = [] ∧ tc = [] ∧ m' = m ∧ (content = [] ∨ closed = false))) ∧
      prependOut o (textLoop k (pos + 1 + byteLen content + (if closed then 1 else 0)) m' r) = .ok a := by
  unfold textLoop at h
  simp only [if_true] at h
  cases hs : scanBlock 1 s with
  | err => rw [hs] at h; simp at h
  | panic => rw [hs] at h; simp at h
  | ok p =>
    obtain ⟨content, closed, r⟩ := p
    rw [hs] at h
    simp only at h
    by_cases hlen : byteLen content + (if closed then 1 else 0) > 1
    · rw [if_pos hlen] at h
      have hne : content ≠ [] := by
        rintro rfl
        cases closed <;> simp at hlen
      cases hb : blockSlice content closed with
      | none => rw [hb] at h; simp at h
      | some tc =>
        rw [hb] at h
        simp only at h
        cases hp : parseBlock tc (pos + 1) with
        | err => rw [hp] at h; simp at h
        | panic => rw [hp] at h; simp at h
        | ok o =>
          rw [hp] at h
          simp only at h
          refine ⟨content, closed, r, tc, o, _, rfl, ?_, ?_, .inl ⟨hp, rfl, hne⟩, h⟩
          · unfold blockSlice at hb
            split at hb
            · simp at hb; exact ⟨[], by simp [hb]⟩
            · obtain ⟨q, e, _⟩ := takeBytes_iff.1 hb
              exact ⟨q, e⟩
          · intro hc _
            simp [blockSlice, hc] at hb
            exact hb.symm
    · rw [if_neg hlen] at h
      cases ht : takeBytes s 1 with
      | none => rw [ht] at h; simp at h
      | some sp =>
        rw [ht] at h
        simp only at h
        have hce : closed = true → content = [] := by
          intro hc
          simp [hc] at hlen
          cases content with
          | nil => rfl
          | cons c t => have := utf8Size_pos c; simp at hlen; omega
        refine ⟨content, closed, r, [], _, m, rfl, ⟨content, by simp⟩, fun hc hn => absurd (hce hc) hn,
          .inr ⟨rfl, rfl, rfl, ?_⟩, h⟩
        cases closed with
        | true => exact .inl (hce rfl)
        | false => exact .inr rfl

/-- The plain text of an analysis is the visible text. -/
theorem textLoop_visible {m : Bool} {s t : Str} (h : Visible m s t) : ∀ (k pos : Nat) (a : Analysis), s.length ≤ k →
    textLoop k pos m s = .ok a → a.plain = t := by
  induction h with
  | nil m =>
    intro k pos a _ h
    cases k <;> simp [textLoop] at h <;> rw [← h]
  | block m m' content s t hb hm hv ih =>
    intro k pos a hl h
    cases k with
    | zero => simp at hl
    | succ k =>
      obtain ⟨content', closed, r, tc, o, m1, h1, h2, h3, h4, h5⟩ := textLoop_block (s := content ++ '}' :: s) h
      rw [scanBlock_closed hb] at h1
      simp only [Outcome.ok.injEq, Prod.mk.injEq] at h1
      obtain ⟨rfl, rfl, rfl⟩ := h1
      obtain ⟨a', e1, e2, _⟩ := prependOut_ok h5
      have hm1 : m1 = m' := by
        rcases h4 with ⟨_, hd, hne⟩ | ⟨_, _, hd, hne⟩
        · rw [h3 rfl hne] at hd
          have := drawLoop_spec content.length content m (Nat.le_refl _)
          rw [hd]
          exact this.unique hm
        · rcases hne with hne | hne
          · subst hne
            rcases hm with ⟨_, e⟩ | ⟨a, n, ⟨num, rest, e, _⟩, _⟩
            · rw [hd, e]
            · simp at e
          · simp at hne
      subst hm1
      rw [e2]
      exact ih _ _ _ (by simp at hl; omega) e1
  | brk m c s t hc hv ih =>
    intro k pos a hl h
    cases k with
    | zero => simp at hl
    | succ k =>
      unfold textLoop at h
      simp only [show ¬ ('\\' = '{') by decide, if_false, if_true] at h
      obtain ⟨a', e1, e2, _⟩ := prependText_ok h
      rw [e2, ih _ _ _ (by simp at hl; omega) e1]
      simp [escapeText, hc]
  | space m s t hv ih =>
    intro k pos a hl h
    cases k with
    | zero => simp at hl
    | succ k =>
      unfold textLoop at h
      simp only [show ¬ ('\\' = '{') by decide, if_false, if_true] at h
      obtain ⟨a', e1, e2, _⟩ := prependText_ok h
      rw [e2, ih _ _ _ (by simp at hl; omega) e1]
      simp [escapeText]
  | other m c s t hc hv ih =>
    intro k pos a hl h
    cases k with
    | zero => simp at hl
    | succ k =>
      unfold textLoop at h
      simp only [show ¬ ('\\' = '{') by decide, if_false, if_true] at h
      obtain ⟨a', e1, e2, _⟩ := prependText_ok h
      rw [e2, ih _ _ _ (by simp at hl; omega) e1]
      simp [escapeText, hc]
  | char m c s t hc hv ih =>
    intro k pos a hl h
    cases k with
    | zero => simp at hl
    | succ k =>
      unfold textLoop at h
      simp only [hc.1, hc.2, if_false] at h
      obtain ⟨a', e1, e2, _⟩ := prependText_ok h
      rw [e2, ih _ _ _ (by simpa using hl) e1]

/-- The analysis of such a text succeeds unless a backslash precedes a character of several bytes. -/
theorem textLoop_total {m : Bool} {s t : Str} (h : Visible m s t) : ∀ (k pos : Nat), s.length ≤ k →
    (∀ a c b, s = a ++ '\\' :: c :: b → c.utf8Size = 1) → ∃ a, textLoop k pos m s = .ok a := by
  induction h with
  | nil m => intro k pos _ _; cases k <;> exact ⟨_, rfl⟩
  | block m m' content s t hb hm hv ih =>
    intro k pos hl hs
    cases k with
    | zero => simp at hl
    | succ k =>
      have hrest : ∀ p, ∃ a, textLoop k p m' s = .ok a := fun p =>
        ih k p (by simp at hl; omega) (fun a c b e => hs ('{' :: content ++ '}' :: a) c b (by rw [e]; simp))
      unfold textLoop
      simp only [List.cons_append, if_true, scanBlock_closed hb]
      cases content with
      | nil =>
        have : m = m' := by
          rcases hm with ⟨_, e⟩ | ⟨a, n, ⟨num, rest, e, _⟩, _⟩
          · exact e.symm
          · simp at e
        subst this
        have ht : takeBytes ([] ++ '}' :: s) 1 = some ['}'] := takeBytes_append ['}'] s
        simp only [byteLen_nil, if_true, Nat.zero_add, Nat.lt_irrefl, if_false, gt_iff_lt, ht]
        obtain ⟨a, ha⟩ := hrest (pos + 1 + 0 + 1)
        rw [ha]
        exact ⟨_, rfl⟩
      | cons c t =>
        have hp := utf8Size_pos c
        rw [if_pos (by simp; omega)]
        simp only [blockSlice, if_true]
        have hfree : ∀ a x b, c :: t = a ++ '\\' :: x :: b → x.utf8Size = 1 := by
          intro a x b e
          exact hs ('{' :: a) x (b ++ '}' :: s) (by rw [e]; simp)
        obtain ⟨o, ho⟩ := blockLoop_total (c :: t).length (pos + 1) (c :: t) hfree
        rw [show parseBlock (c :: t) (pos + 1) = .ok o from ho]
        simp only
        have hmode : drawMode (c :: t) m = m' := (drawLoop_spec _ _ m (Nat.le_refl _)).unique hm
        rw [hmode]
        obtain ⟨a, ha⟩ := hrest (pos + 1 + byteLen (c :: t) + 1)
        rw [ha]
        exact ⟨_, rfl⟩
  | brk m c s t hc hv ih =>
    intro k pos hl hs
    cases k with
    | zero => simp at hl
    | succ k =>
      unfold textLoop
      simp only [show ¬ ('\\' = '{') by decide, if_false, if_true]
      obtain ⟨a, ha⟩ := ih k (pos + 1 + c.utf8Size) (by simp at hl; omega) (fun a d b e => hs ('\\' :: c :: a) d b (by rw [e]; rfl))
      rw [ha]; exact ⟨_, rfl⟩
  | space m s t hv ih =>
    intro k pos hl hs
    cases k with
    | zero => simp at hl
    | succ k =>
      unfold textLoop
      simp only [show ¬ ('\\' = '{') by decide, if_false, if_true]
      obtain ⟨a, ha⟩ := ih k (pos + 1 + 'h'.utf8Size) (by simp at hl; omega) (fun a d b e => hs ('\\' :: 'h' :: a) d b (by rw [e]; rfl))
      rw [ha]; exact ⟨_, rfl⟩
  | other m c s t hc hv ih =>
    intro k pos hl hs
    cases k with
    | zero => simp at hl
    | succ k =>
      unfold textLoop
      simp only [show ¬ ('\\' = '{') by decide, if_false, if_true]
      obtain ⟨a, ha⟩ := ih k (pos + 1 + c.utf8Size) (by simp at hl; omega) (fun a d b e => hs ('\\' :: c :: a) d b (by rw [e]; rfl))
      rw [ha]; exact ⟨_, rfl⟩
  | char m c s t hc hv ih =>
    intro k pos hl hs
    cases k with
    | zero => simp at hl
    | succ k =>
      unfold textLoop
      simp only [hc.1, hc.2, if_false]
      obtain ⟨a, ha⟩ := ih k (pos + c.utf8Size) (by simpa using hl) (fun a d b e => hs (c :: a) d b (by rw [e]; rfl))
      rw [ha]; exact ⟨_, rfl⟩

theorem Reads.end_le {pos : Nat} {s : Str} {ts : List Tag} {ds : List Nat} (h : Reads pos s ts ds) :
    ∀ t ∈ ts, t.pos + 1 + byteLen t.name + byteLen t.args ≤ pos + byteLen s := by
  intro t ht
  obtain ⟨a, b, e, ep, _⟩ := h.located t ht
  rw [e, ep]
  simp [show '\\'.utf8Size = 1 by decide]
  omega

/-- The tags of a text are in the text, in order. -/
theorem textLoop_located (k : Nat) : ∀ (pos : Nat) (m : Bool) (s : Str) (a : Analysis), textLoop k pos m s = .ok a →
    (∀ t ∈ a.tags, ∃ x y, s = x ++ '\\' :: t.name ++ t.args ++ y ∧ t.pos = pos + byteLen x) ∧
    a.tags.Pairwise (fun t u => t.pos + 1 + byteLen t.name + byteLen t.args ≤ u.pos) := by
  induction k with
  | zero =>
    intro pos m s a h
    cases s <;> simp [textLoop] at h <;> simp [← h]
  | succ k ih =>
    intro pos m s a h
    cases s with
    | nil => simp [textLoop] at h; simp [← h]
    | cons c s =>
      by_cases hc : c = '{'
      · subst hc
        obtain ⟨content, closed, r, tc, o, m', h1, ⟨q, h2⟩, h3, h4, h5⟩ := textLoop_block h
        obtain ⟨a', e1, _, e3, _⟩ := prependOut_ok h5
        obtain ⟨i1, i2⟩ := ih _ _ _ _ e1
        obtain ⟨es, _⟩ := scanBlock_ok _ _ _ _ _ h1
        have hge : ∀ t ∈ a'.tags, pos + 1 + byteLen content ≤ t.pos := by
          intro t ht
          obtain ⟨x, y, _, e⟩ := i1 t ht
          omega
        rw [e3]
        have hfar : ∀ t ∈ a'.tags, ∃ x y, '{' :: s = x ++ '\\' :: t.name ++ t.args ++ y ∧ t.pos = pos + byteLen x := by
          intro t ht
          obtain ⟨x, y, e, ep⟩ := i1 t ht
          refine ⟨'{' :: content ++ (if closed then ['}'] else []) ++ x, y, by rw [es, e]; simp, ?_⟩
          rw [ep]
          cases closed <;> simp [show '{'.utf8Size = 1 by decide, show '}'.utf8Size = 1 by decide] <;> omega
        rcases h4 with ⟨hp, _⟩ | ⟨hp, _⟩
        · have hr := blockLoop_reads _ _ _ _ (Nat.le_refl _) hp
          constructor
          · intro t ht
            rcases List.mem_append.1 ht with ht | ht
            · obtain ⟨x, y, e, ep, _⟩ := hr.located t ht
              refine ⟨'{' :: x, y ++ q ++ (if closed then ['}'] else []) ++ r, by rw [es, h2, e]; simp, ?_⟩
              rw [ep]; simp [show '{'.utf8Size = 1 by decide]; omega
            · exact hfar t ht
          · refine List.pairwise_append.2 ⟨hr.ordered, i2, ?_⟩
            intro t ht u hu
            have h6 := hr.end_le t ht
            have h7 := hge u hu
            rw [h2] at h7
            simp at h7
            omega
        · rw [hp]
          exact ⟨hfar, i2⟩
      · by_cases hb : c = '\\'
        · subst hb
          unfold textLoop at h
          simp only [hc, if_false, if_true] at h
          cases s with
          | nil => simp at h; simp [← h]
          | cons d s =>
            simp only at h
            obtain ⟨a', e1, _, e3, _⟩ := prependText_ok h
            obtain ⟨i1, i2⟩ := ih _ _ _ _ e1
            rw [e3]
            refine ⟨?_, i2⟩
            intro t ht
            obtain ⟨x, y, e, ep⟩ := i1 t ht
            refine ⟨'\\' :: d :: x, y, by rw [e]; rfl, ?_⟩
            rw [ep]; simp [show '\\'.utf8Size = 1 by decide]; omega
        · unfold textLoop at h
          simp only [hc, hb, if_false] at h
          obtain ⟨a', e1, _, e3, _⟩ := prependText_ok h
          obtain ⟨i1, i2⟩ := ih _ _ _ _ e1
          rw [e3]
          refine ⟨?_, i2⟩
          intro t ht
          obtain ⟨x, y, e, ep⟩ := i1 t ht
          refine ⟨c :: x, y, by rw [e]; rfl, ?_⟩
          rw [ep]; simp; omega

end Verif.Override
