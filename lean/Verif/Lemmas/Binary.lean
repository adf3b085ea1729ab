import Verif.Lemmas.Parser
/-! Reading font and graphics sections line by line. -/
namespace Verif.Parser
open Verif
open Verif.Ast

/-- The name on a line that starts an entry. -/
def header (key l : Str) : Option Str :=
  match splitOnce ':' l with
  | some (k, v) => if trim k = key then some (trim v) else none
  | none => none

/-- Lines that end an entry. -/
def ends (l : Str) : Bool := decide (trim l = []) || startsWith "# ".toList (trim l) || decide (trim l = ['#'])

/-- Lines dropped from an entry. -/
def dropped (l : Str) : Bool := startsWith [';'] (trim l) || startsWith ['!'] (trim l)

/-- Entries of lines, given an entry being read. -/
def binLines (key : Str) : Option (Str × List Str) → List Str → List (Str × List Str)
  | none, [] => []
  | some e, [] => [e]
  | none, l :: ls => binLines key ((header key l).map (fun n => (n, []))) ls
  | some e, l :: ls =>
    if ends l then e :: binLines key none ls
    else if dropped l then binLines key (some e) ls
    else binLines key (some (e.1, e.2 ++ [l])) ls

theorem startsWith_line : ∀ {p l : Str} (r : Str), '\n' ∉ p → startsWith p (l ++ '\n' :: r) = startsWith p l
  | [], _, _, _ => rfl
  | a :: p, [], r, h => by
    unfold startsWith
    rw [List.nil_append, stripPrefix, stripPrefix, if_neg (by rintro rfl; exact h (by simp))]
  | a :: p, c :: l, r, h => by
    have ih := startsWith_line (p := p) (l := l) r (fun hm => h (by simp [hm]))
    unfold startsWith at ih ⊢
    rw [List.cons_append, stripPrefix, stripPrefix]
    by_cases e : a = c
    · rw [if_pos e, if_pos e, ih]
    · rw [if_neg e, if_neg e]

theorem comments_bin : Comments isBinComment := by
  constructor
  · intro l r _
    unfold isBinComment
    rw [startsWith_line r (by decide), startsWith_line r (by decide)]
  · intro l h
    unfold isBinComment at h
    rw [Bool.or_eq_true] at h
    rcases h with h | h
    · obtain ⟨r, rfl⟩ := startsWith_iff.1 h
      unfold opens
      rw [List.singleton_append, trimStart_cons (by decide)]
      rfl
    · obtain ⟨r, rfl⟩ := startsWith_iff.1 h
      unfold opens
      have : "!:".toList ++ r = '!' :: ':' :: r := rfl
      rw [this, trimStart_cons (by decide)]
      rfl

/-- A line whose first sign is not the key's does not start an entry. -/
theorem header_none {key l r : Str} {a b : Char} (hk : key = a :: r) (hl : (trim l).head? = some b) (hab : a ≠ b) :
    header key l = none := by
  unfold header
  cases e : splitOnce ':' l with
  | none => rfl
  | some p =>
    obtain ⟨k, v⟩ := p
    simp only
    rw [if_neg]
    intro h
    obtain ⟨-, x, y, e1, hx, hy⟩ := InfoCmd.stripped_trim k
    have e2 := (splitOnce_some e).1
    rw [h, hk] at e1
    have : trimStart l = a :: (r ++ y ++ ':' :: v) := by
      rw [e2, e1]
      have : x ++ a :: r ++ y ++ ':' :: v = x ++ a :: (r ++ y ++ ':' :: v) := by simp
      rw [this, trimStart_append_ws _ (fun c hc => (SrtDoc.white_iff c).2 (hx c hc))]
      apply trimStart_cons
      have := (InfoCmd.stripped_trim k).1.1 a (by rw [h, hk]; rfl)
      exact SrtDoc.not_white this
    have ht : (trim l).head? = some a := by
      unfold trim trimEnd
      rw [this]
      cases e3 : ((a :: (r ++ y ++ ':' :: v)).reverse.dropWhile isWs) with
      | nil =>
        have h3 : ∀ c ∈ (a :: (r ++ y ++ ':' :: v)).reverse, isWs c = true := by
          intro c hc
          rw [← List.takeWhile_append_dropWhile (p := isWs) (l := (a :: (r ++ y ++ ':' :: v)).reverse), e3,
            List.append_nil] at hc
          exact takeWhile_all _ c hc
        have := h3 ':' (by simp)
        exact absurd this (by decide)
      | cons c x =>
        have hsuf : (c :: x) <:+ (a :: (r ++ y ++ ':' :: v)).reverse := by rw [← e3]; exact List.dropWhile_suffix _
        obtain ⟨z, hz⟩ := hsuf
        have hz' : (c :: x).reverse ++ z.reverse = a :: (r ++ y ++ ':' :: v) := by
          rw [← List.reverse_append, hz, List.reverse_reverse]
        cases e4 : (c :: x).reverse with
        | nil => simp at e4
        | cons d w => rw [e4] at hz'; simp at hz'; simp [hz'.1]
    rw [ht] at hl
    exact hab (Option.some.inj hl)

theorem header_blank {key l r : Str} {a : Char} (hk : key = a :: r) (hl : trim l = []) : header key l = none := by
  unfold header
  cases e : splitOnce ':' l with
  | none => rfl
  | some p =>
    obtain ⟨k, v⟩ := p
    have := trim_eq_nil.1 hl ':' (by rw [(splitOnce_some e).1]; simp)
    exact absurd this (by decide)

/-- What is asked of the key of entries. -/
def GoodKey (key : Str) : Prop := ∃ a r, key = a :: r ∧ a ≠ ';' ∧ a ≠ '!' ∧ a ≠ '#'

theorem header_ends {key l : Str} (hk : GoodKey key) (h : ends l = true) : header key l = none := by
  obtain ⟨a, r, hk, h1, h2, h3⟩ := hk
  unfold ends at h
  simp only [Bool.or_eq_true, decide_eq_true_eq] at h
  rcases h with (h | h) | h
  · exact header_blank hk h
  · obtain ⟨x, hx⟩ := startsWith_iff.1 h
    exact header_none hk (by rw [hx]; rfl) h3
  · exact header_none hk (by rw [h]; rfl) h3

theorem trim_head {l : Str} {c : Char} (h : (l.dropWhile isBlank).head? = some c) (hc : isWs c = false) :
    (trim l).head? = some c := by
  rw [← trim_dropBlank]
  cases e : l.dropWhile isBlank with
  | nil => rw [e] at h; simp at h
  | cons d x =>
    rw [e] at h
    simp at h; subst h
    unfold trim
    rw [trimStart_cons hc]
    unfold trimEnd
    obtain ⟨z, hz⟩ := List.dropWhile_suffix (l := (d :: x).reverse) isWs
    have hz' : ((d :: x).reverse.dropWhile isWs).reverse ++ z.reverse = d :: x := by
      rw [← List.reverse_append, hz, List.reverse_reverse]
    cases e4 : ((d :: x).reverse.dropWhile isWs).reverse with
    | nil =>
      rw [List.reverse_eq_nil_iff] at e4
      have : isWs d = true := by
        have h3 := List.takeWhile_append_dropWhile (p := isWs) (l := (d :: x).reverse)
        rw [e4, List.append_nil] at h3
        apply takeWhile_all (d :: x).reverse
        rw [h3]; simp
      rw [hc] at this; cases this
    | cons b w => rw [e4] at hz'; simp at hz'; simp [hz'.1]

theorem header_passed {key l : Str} (hk : GoodKey key)
    (h : isBinComment (l.dropWhile isBlank) = true ∨ l.dropWhile isBlank = []) : header key l = none := by
  obtain ⟨a, r, hk, h1, h2, h3⟩ := hk
  rcases h with h | h
  · unfold isBinComment at h
    rw [Bool.or_eq_true] at h
    rcases h with h | h
    · obtain ⟨x, hx⟩ := startsWith_iff.1 h
      exact header_none hk (trim_head (by rw [hx]; rfl) (by decide)) h1
    · obtain ⟨x, hx⟩ := startsWith_iff.1 h
      exact header_none hk (trim_head (by rw [hx]; rfl) (by decide)) h2
  · exact header_blank hk (blank_trim h)

theorem binLines_white {key : Str} (hk : GoodKey key) : ∀ {L : List Str}, (∀ l ∈ L, ∀ c ∈ l, isWs c = true) →
    binLines key none L = []
  | [], _ => rfl
  | l :: L, h => by
    have hb : header key l = none := by
      obtain ⟨a, r, e, -⟩ := hk
      exact header_blank e (trim_eq_nil.2 (h l (by simp)))
    rw [binLines, hb]
    exact binLines_white hk (fun x hx => h x (by simp [hx]))

theorem binLines_white' {key : Str} (hk : GoodKey key) (e : Str × List Str) {L : List Str}
    (h : ∀ l ∈ L, ∀ c ∈ l, isWs c = true) : binLines key (some e) L = [e] := by
  cases L with
  | nil => rfl
  | cons l L =>
    rw [binLines, if_pos, binLines_white hk (fun x hx => h x (by simp [hx]))]
    unfold ends
    rw [trim_eq_nil.2 (h l (by simp))]; rfl

/-- The body of a text, by its first line. -/
theorem body_step {t : Tr} (ho : opens t.current = false) (hne : t.rest ≠ []) :
    (∃ r, t.skipLine.rest = r ∧ body t.rest = t.current :: body r) ∨
    (t.skipLine.rest = [] ∧ body t.rest = [t.current]) := by
  rcases line_cases t.rest with ⟨l, r, e, hl⟩ | hl
  · left
    have hc := current_eq_line e hl
    have e2 : t.skipLine.rest = r := by
      unfold Tr.skipLine
      rw [e, splitOnce_append _ hl]
    exact ⟨r, e2, by rw [hc, e, body_line hl (hc ▸ ho)]⟩
  · right
    have hc := current_eq_last hl
    have e2 : t.skipLine.rest = [] := by
      unfold Tr.skipLine
      rw [splitOnce_none hl]
    exact ⟨e2, by rw [hc, body_last hl (hc ▸ ho)]⟩

/-- Passing a line, nothing being read. -/
theorem binLines_step {key : Str} (hk : GoodKey key) {t : Tr} (ho : opens t.current = false) (hne : t.rest ≠ []) :
    binLines key none (body t.rest) =
      binLines key ((header key t.current).map (fun n => (n, []))) (body t.skipLine.rest) := by
  rcases body_step ho hne with ⟨r, e, hb⟩ | ⟨e, hb⟩
  · rw [hb, e, binLines]
  · rw [hb, e, binLines, body_nil]
    cases header key t.current with
    | none => rw [Option.map_none, binLines_white hk (L := [[]]) (by simp)]; rfl
    | some n => rw [Option.map_some, binLines_white' hk _ (L := [[]]) (by simp)]; rfl

/-- Passing a line of an entry. -/
theorem binLines_data {key : Str} (hk : GoodKey key) (nm : Str) (acc : List Str) {t : Tr} (ho : opens t.current = false)
    (hne : t.rest ≠ []) (he : ends t.current = false) :
    binLines key (some (nm, acc)) (body t.rest) =
      binLines key (some (nm, if dropped t.current then acc else acc ++ [t.current])) (body t.skipLine.rest) := by
  have aux : ∀ L, binLines key (some (nm, acc)) (t.current :: L) =
      binLines key (some (nm, if dropped t.current then acc else acc ++ [t.current])) L := by
    intro L
    rw [binLines, if_neg (by simp [he])]
    by_cases h : dropped t.current = true
    · rw [if_pos h, if_pos h]
    · rw [if_neg h, if_neg h]
  rcases body_step ho hne with ⟨r, e, hb⟩ | ⟨e, hb⟩
  · rw [hb, e, aux]
  · rw [hb, e, aux, body_nil, binLines_white' hk _ (L := [[]]) (by simp)]
    rfl

theorem collectData_spec {key : Str} (hk : GoodKey key) (nm : Str) : ∀ (n : Nat) (acc : List Str) (t : Tr), t.Start →
    t.rest.length < n → ∃ d t', collectData n acc t = some (d, t') ∧
      binLines key (some (nm, acc)) (body t.rest) = (nm, d) :: binLines key none (body t'.rest) ∧
      tail t'.rest = tail t.rest ∧ t'.rest <:+ t.rest ∧ t'.off + byteLen t'.rest = t.off + byteLen t.rest ∧ t'.Start
  | 0, _, _, _, h => by omega
  | n + 1, acc, t, ht, h => by
    rw [collectData]
    by_cases h0 : t.rest = [] ∨ t.atSection = true
    · rw [if_pos h0]
      have hw : ∀ l ∈ body t.rest, ∀ c ∈ l, isWs c = true := by
        rcases h0 with h0 | h0
        · rw [h0, body_nil]; simp
        · exact (at_section h0).1
      exact ⟨acc, t, rfl, by rw [binLines_white' hk _ hw, binLines_white hk hw], rfl, List.suffix_refl _, rfl, ht⟩
    rw [if_neg h0]
    have hne : t.rest ≠ [] := fun e => h0 (Or.inl e)
    have hto : opens t.rest = false := by
      cases e : opens t.rest with
      | false => rfl
      | true => exact absurd (Or.inr e) h0
    have ho := current_opens hto
    have hb : startsWith ['['] (trim t.current) = false := by
      cases e : startsWith ['['] (trim t.current) with
      | false => rfl
      | true =>
        exfalso
        obtain ⟨x, hx⟩ := startsWith_iff.1 e
        obtain ⟨-, a, b, e1, ha, -⟩ := InfoCmd.stripped_trim t.current
        have : opens t.current = true := by
          rw [opens_iff]
          refine ⟨a, x ++ b, ?_, fun c hc => (SrtDoc.white_iff c).2 (ha c hc)⟩
          conv => lhs; rw [e1]
          rw [hx]; simp
        rw [ho] at this; cases this
    have hends : ends t.current = true → ∃ d t', some (acc, t) = some (d, t') ∧
        binLines key (some (nm, acc)) (body t.rest) = (nm, d) :: binLines key none (body t'.rest) ∧
        tail t'.rest = tail t.rest ∧ t'.rest <:+ t.rest ∧ t'.off + byteLen t'.rest = t.off + byteLen t.rest ∧ t'.Start := by
      intro he
      refine ⟨acc, t, rfl, ?_, rfl, List.suffix_refl _, rfl, ht⟩
      have hL : ∀ L, binLines key (some (nm, acc)) (t.current :: L) = (nm, acc) :: binLines key none (t.current :: L) := by
        intro L
        have h2 : binLines key none (t.current :: L) = binLines key none L := by
          rw [binLines, header_ends hk he]; rfl
        rw [h2, binLines, if_pos he]
      rcases body_step ho hne with ⟨r, e, hb⟩ | ⟨e, hb⟩
      · rw [hb, hL]
      · rw [hb, hL]
    by_cases h1 : trim t.current = []
    · rw [if_pos (Or.inl h1)]
      exact hends (by unfold ends; rw [h1]; rfl)
    rw [if_neg (by rw [hb]; simp [h1])]
    have hlt := skipLine_lt hne
    have next : ends t.current = false → ∀ acc', (if dropped t.current then acc else acc ++ [t.current]) = acc' →
        ∃ d t', collectData n acc' t.skipLine = some (d, t') ∧
        binLines key (some (nm, acc)) (body t.rest) = (nm, d) :: binLines key none (body t'.rest) ∧
        tail t'.rest = tail t.rest ∧ t'.rest <:+ t.rest ∧ t'.off + byteLen t'.rest = t.off + byteLen t.rest ∧ t'.Start := by
      intro he acc' hacc
      obtain ⟨d, t', f1, f2, f3, f4, f5, f6⟩ := collectData_spec hk nm n acc' t.skipLine t.start_skipLine (by omega)
      refine ⟨d, t', f1, ?_, by rw [f3, tail_step ho], f4.trans (skipLine_suffix t), by rw [f5, skipLine_bytes], f6⟩
      rw [binLines_data hk nm acc ho hne he, hacc, f2]
    by_cases h2 : startsWith [';'] (trim t.current) = true ∨ startsWith ['!'] (trim t.current) = true
    · rw [if_pos h2]
      have hd : dropped t.current = true := by unfold dropped; rw [Bool.or_eq_true]; exact h2
      have he : ends t.current = false := by
        have key2 : ∀ a : Char, a ≠ '#' → startsWith [a] (trim t.current) = true → ends t.current = false := by
          intro a ha hs
          obtain ⟨x, hx⟩ := startsWith_iff.1 hs
          have hx : trim t.current = a :: x := hx
          unfold ends
          rw [hx]
          have : startsWith "# ".toList (a :: x) = false := by
            show (stripPrefix ('#' :: [' ']) (a :: x)).isSome = false
            rw [stripPrefix, if_neg (Ne.symm ha)]; rfl
          rw [this]
          simp [ha]
        rcases h2 with h2 | h2
        · exact key2 ';' (by decide) h2
        · exact key2 '!' (by decide) h2
      exact next he acc (by rw [if_pos hd])
    rw [if_neg h2]
    by_cases h3 : startsWith "# ".toList (trim t.current) = true ∨ trim t.current = ['#']
    · rw [if_pos h3]
      apply hends
      unfold ends
      rcases h3 with h3 | h3
      · rw [h3]; simp
      · rw [h3]; simp
    · rw [if_neg h3]
      apply next
      · unfold ends
        simp only [Bool.or_eq_false_iff, decide_eq_false_iff_not]
        refine ⟨⟨h1, ?_⟩, fun e => h3 (Or.inr e)⟩
        cases e : startsWith "# ".toList (trim t.current) with
        | false => rfl
        | true => exact absurd (Or.inl e) h3
      · rw [if_neg]
        unfold dropped
        rw [Bool.or_eq_true]; exact h2

theorem binLines_repeat {key : Str} (hk : GoodKey key) {t : Tr} :
    ∀ k, (∀ j, j < k → (Nat.repeat Tr.skipLine j t).rest ≠ [] ∧
        (isBinComment ((Nat.repeat Tr.skipLine j t).current.dropWhile isBlank) = true ∨
          (Nat.repeat Tr.skipLine j t).current.dropWhile isBlank = [])) →
      binLines key none (body t.rest) = binLines key none (body (Nat.repeat Tr.skipLine k t).rest) ∧
        tail t.rest = tail (Nat.repeat Tr.skipLine k t).rest
  | 0, _ => ⟨rfl, rfl⟩
  | k + 1, h => by
    obtain ⟨h1, h2⟩ := binLines_repeat hk k (fun j hj => h j (by omega))
    obtain ⟨hne, hcur⟩ := h k (by omega)
    have ho := passed_opens comments_bin hcur
    rw [h1, h2, Nat.repeat]
    constructor
    · rw [binLines_step hk ho hne, header_passed hk hcur]; rfl
    · rw [tail_step ho]

theorem splitOnce_dropBlank {l : Str} {k v : Str} (h : splitOnce ':' (l.dropWhile isBlank) = some (k, v)) :
    ∃ k', splitOnce ':' l = some (k', v) ∧ trim k' = trim k := by
  obtain ⟨e, hk⟩ := splitOnce_some h
  refine ⟨l.takeWhile isBlank ++ k, ?_, ?_⟩
  · conv => lhs; rw [← List.takeWhile_append_dropWhile (p := isBlank) (l := l), e]
    rw [← List.append_assoc]
    apply splitOnce_append
    rw [List.mem_append]
    rintro (h1 | h1)
    · exact absurd (takeWhile_all l ':' h1) (by decide)
    · exact hk h1
  · unfold trim
    rw [trimStart_append_ws _ (fun c hc => isBlank_isWs (takeWhile_all l c hc))]

theorem header_dropBlank (key l : Str) : header key (l.dropWhile isBlank) = header key l := by
  unfold header
  cases e : splitOnce ':' (l.dropWhile isBlank) with
  | some p =>
    obtain ⟨k, v⟩ := p
    obtain ⟨k', e1, e2⟩ := splitOnce_dropBlank e
    rw [e1]
    simp only
    rw [e2]
  | none =>
    have h := splitOnce_eq_none e
    have : ':' ∉ l := by
      intro hm
      rw [← List.takeWhile_append_dropWhile (p := isBlank) (l := l)] at hm
      rcases List.mem_append.1 hm with h1 | h1
      · exact absurd (takeWhile_all l ':' h1) (by decide)
      · exact h h1
    rw [splitOnce_none this]

/-- An entry as its name and data. -/
def Media.plain (m : Media) : Str × List Str := (m.filename, m.data)

/-- **The loop of a binary section** reads the lines up to the next section. -/
theorem binaryLoop_spec {key : Str} (hk : GoodKey key) : ∀ (n : Nat) (acc : List Media) (t : Tr), t.Start →
    t.rest.length < n → ∃ l t', binaryLoop key n acc t = some (acc ++ l, t') ∧
      l.map Media.plain = binLines key none (body t.rest) ∧
      trimStart t'.rest = tail t.rest ∧ t'.rest <:+ t.rest ∧ t'.off + byteLen t'.rest = t.off + byteLen t.rest
  | 0, _, _, _, h => by omega
  | n + 1, acc, t, ht, h => by
    rw [binaryLoop]
    by_cases h0 : t.rest = [] ∨ t.atSection = true
    · rw [if_pos h0]
      refine ⟨[], t, by rw [List.append_nil], ?_, ?_, List.suffix_refl _, rfl⟩
      · rcases h0 with h0 | h0
        · rw [h0, body_nil, binLines_white hk (by simp)]; rfl
        · rw [binLines_white hk (at_section h0).1]; rfl
      · rcases h0 with h0 | h0
        · rw [h0, tail_nil]; rfl
        · exact (at_section h0).2.symm
    rw [if_neg h0]
    obtain ⟨k, b, e1, hb, e3, e4, e5⟩ := skipBlank_spec comments_bin (t.rest.length + 1) t ht (by omega)
    obtain ⟨r1, r2⟩ := binLines_repeat hk k e4
    rw [← e3] at r1 r2
    have hsuf : b.rest <:+ t.rest := by rw [e3]; exact repeat_suffix t k
    have hbytes : b.off + byteLen b.rest = t.off + byteLen t.rest := by rw [e3]; exact repeat_bytes t k
    rw [e1]
    simp only
    rw [r1, r2]
    by_cases h1 : b.skipWs.rest = [] ∨ b.skipWs.atSection = true
    · rw [if_pos h1]
      refine ⟨[], b.skipWs, by rw [List.append_nil], ?_, ?_, (skipWs_suffix b).trans hsuf, by rw [skipWs_bytes, hbytes]⟩
      · rcases h1 with h1 | h1
        · by_cases h2 : b.rest = []
          · rw [h2, body_nil, binLines_white hk (by simp)]; rfl
          · have hcur : b.current.dropWhile isBlank = [] := by rw [← skipWs_current]; unfold Tr.current; rw [h1]; rfl
            have hsk : b.skipLine.rest = [] := by
              rw [← skipWs_skipLine]; unfold Tr.skipLine; rw [h1]; rfl
            rw [binLines_step hk (passed_opens comments_bin (Or.inr hcur)) h2, header_passed hk (Or.inr hcur), hsk, body_nil]
            rw [Option.map_none, binLines_white hk (by simp)]; rfl
        · rw [atSection_eq, skipWs_opens] at h1
          rw [binLines_white hk (at_section h1).1]; rfl
      · rcases h1 with h1 | h1
        · rw [h1]
          have hcur : b.current.dropWhile isBlank = [] := by rw [← skipWs_current]; unfold Tr.current; rw [h1]; rfl
          have ho := passed_opens comments_bin (Or.inr hcur)
          rw [← tail_step ho, ← skipWs_skipLine]
          unfold Tr.skipLine
          rw [h1]
          exact tail_nil.symm
        · rw [atSection_eq, skipWs_opens] at h1
          rw [(at_section h1).2]
          exact trimStart_dropBlank b.rest
    · rw [if_neg h1]
      have h1a : b.skipWs.rest ≠ [] := fun e => h1 (Or.inl e)
      have hbo : opens b.rest = false := by
        cases e : opens b.rest with
        | false => rfl
        | true => exact absurd (Or.inr (by rw [atSection_eq, skipWs_opens, e])) h1
      have hco := current_opens hbo
      have hne : b.rest ≠ [] := by
        intro e; apply h1a
        show b.rest.dropWhile isBlank = []
        rw [e]; rfl
      have hlt := skipLine_lt hne
      have hle := hsuf.length_le
      have hws := (skipWs_suffix b).length_le
      have hpos : 0 < b.skipWs.rest.length := List.length_pos_iff.2 h1a
      -- a line that is no entry
      have other : header key b.current = none → ∃ l t', binaryLoop key n (acc ++ (none : Option Media).toList) b.skipLine =
          some (acc ++ l, t') ∧ l.map Media.plain = binLines key none (body b.rest) ∧ trimStart t'.rest = tail b.rest ∧
          t'.rest <:+ t.rest ∧ t'.off + byteLen t'.rest = t.off + byteLen t.rest := by
        intro hh
        obtain ⟨l, t', f1, f2, f3, f4, f5⟩ := binaryLoop_spec hk n acc b.skipLine b.start_skipLine (by omega)
        refine ⟨l, t', by rw [Option.toList_none, List.append_nil, f1], ?_, by rw [f3, tail_step hco],
          (f4.trans (skipLine_suffix b)).trans hsuf, by rw [f5, skipLine_bytes, hbytes]⟩
        rw [binLines_step hk hco hne, hh]
        exact f2
      unfold parseEntry
      rw [skipWs_current]
      have hhd := header_dropBlank key b.current
      cases e : splitOnce ':' (b.current.dropWhile isBlank) with
      | none =>
        simp only
        rw [skipWs_skipLine]
        apply other
        rw [← hhd]; unfold header; rw [e]
      | some p =>
        obtain ⟨kk, v⟩ := p
        simp only
        by_cases hkey : trim kk = key
        · rw [if_pos hkey, skipWs_skipLine]
          have hh : header key b.current = some (trim v) := by
            rw [← hhd]; unfold header; rw [e]; simp only; rw [if_pos hkey]
          have hltw : b.skipLine.rest.length < b.skipWs.rest.length + 1 := by
            rw [← skipWs_skipLine]
            have := skipLine_lt h1a
            omega
          obtain ⟨d, t2, g1, g2, g3, g4, g5, g6⟩ := collectData_spec hk (trim v) (b.skipWs.rest.length + 1) [] b.skipLine
            b.start_skipLine hltw
          rw [g1]
          simp only
          have hl2 := g4.length_le
          obtain ⟨l, t', f1, f2, f3, f4, f5⟩ := binaryLoop_spec hk n (acc ++ (some ⟨trim v, d, t2.spanFrom b.skipWs⟩ : Option Media).toList)
            t2 g6 (by omega)
          refine ⟨⟨trim v, d, t2.spanFrom b.skipWs⟩ :: l, t', ?_, ?_, by rw [f3, g3, tail_step hco],
            ((f4.trans g4).trans (skipLine_suffix b)).trans hsuf, by rw [f5, g5, skipLine_bytes, hbytes]⟩
          · rw [f1]; simp
          · rw [binLines_step hk hco hne, hh, Option.map_some, g2, List.map_cons, f2]
            rfl
        · rw [if_neg hkey, skipWs_skipLine]
          simp only
          apply other
          rw [← hhd]; unfold header; rw [e]; simp only; rw [if_neg hkey]

theorem goodKey_font : GoodKey "fontname".toList := ⟨'f', "ontname".toList, rfl, by decide, by decide, by decide⟩
theorem goodKey_graphic : GoodKey "filename".toList := ⟨'f', "ilename".toList, rfl, by decide, by decide, by decide⟩

end Verif.Parser
