import Verif.Lemmas.Script
import Verif.Lemmas.LineNo
import Verif.Lemmas.UU
import Verif.Model.Media
import Verif.Spec.Media
/-! Embedded files. -/
namespace Verif.Media
open Verif
open Verif.Parser
open Verif.Spec.Script
open Verif.Spec.Media
open Verif.Spec.InfoCmd (Stripped)
open Verif.Spec.EventCmd (White)
open Verif.UU (encode encodeLine)

theorem stripped_head {c : Char} {l x : Str} (h : Stripped (c :: l) x) (hc : ¬ White c) :
    ∃ x' b, x = c :: x' ∧ l = x' ++ b ∧ ∀ y ∈ b, White y := by
  obtain ⟨-, a, b, e, ha, hb⟩ := h
  cases a with
  | cons d a =>
    have : c = d := (List.cons.inj e).1
    exact absurd (this ▸ ha d (by simp)) hc
  | nil =>
    cases x with
    | nil =>
      cases b with
      | nil => cases e
      | cons d b =>
        have : c = d := (List.cons.inj e).1
        exact absurd (this ▸ hb d (by simp)) hc
    | cons d x =>
      obtain ⟨h1, h2⟩ := List.cons.inj e
      exact ⟨x, b, by rw [h1], h2, hb⟩

/-- A data line by its first characters. -/
theorem plain_line {c : Char} {l : Str} (hc : ¬ White c) (h1 : c ≠ ';') (h2 : c ≠ '!')
    (h3 : c = '#' → ∃ d l', l = d :: l' ∧ ¬ White d) : ¬ EndsData (c :: l) ∧ ¬ Remark (c :: l) := by
  constructor
  · rintro ⟨x, hx, hends⟩
    obtain ⟨x', b, rfl, e, hb⟩ := stripped_head hx hc
    rcases hends with h | h | ⟨y, h⟩
    · cases h
    · obtain ⟨e1, e2⟩ := List.cons.inj h
      obtain ⟨d, l', hl, hd⟩ := h3 e1
      rw [e2, List.nil_append] at e
      exact hd (hb d (by rw [← e, hl]; simp))
    · obtain ⟨e1, e2⟩ := List.cons.inj h
      obtain ⟨d, l', hl, hd⟩ := h3 e1
      rw [e2, hl] at e
      have : d = ' ' := (List.cons.inj e).1
      exact hd (by rw [this]; exact (SrtDoc.white_iff _).1 (by decide))
  · rintro ⟨x, hx, hr⟩
    obtain ⟨x', b, rfl, e, hb⟩ := stripped_head hx hc
    rcases hr with h | h
    · exact h1 (Option.some.inj h)
    · exact h2 (Option.some.inj h)

theorem small_not_white {n : Nat} (h1 : 33 ≤ n) (h2 : n < 128) : ¬ White (Char.ofNat n) := by
  intro hw
  exact (by decide : ∀ n < 128, 33 ≤ n → ¬ isWs (Char.ofNat n) = true) n h2 h1 ((SrtDoc.white_iff _).2 hw)

theorem ofNat_ne {n m : Nat} (h1 : n < 128) (h2 : m < 128) (h : n ≠ m) : Char.ofNat n ≠ Char.ofNat m := by
  intro e
  apply h
  rw [← UU.ofNat_small h1, ← UU.ofNat_small h2, e]

/-- The chunks of the data: full ones and the last. -/
theorem chunk_cases (n : Nat) (hn : 0 < n) : ∀ (data c : List Nat), c ∈ chunks n data → c.length = n ∨
    (c.length = data.length % n ∧ c = data.drop (data.length - c.length))
  | data, c, h => by
    by_cases h0 : data = []
    · subst h0; simp [chunks, chunksAux] at h
    rw [chunks_cons hn h0] at h
    cases h with
    | head =>
      by_cases hle : n ≤ data.length
      · left; rw [List.length_take]; omega
      · right
        have e : data.take n = data := List.take_of_length_le (by omega)
        rw [e]
        exact ⟨(Nat.mod_eq_of_lt (by omega)).symm, by simp⟩
    | tail _ h =>
      have hlt : (data.drop n).length < data.length := by
        rw [List.length_drop]
        have : 0 < data.length := List.length_pos_iff.2 h0
        omega
      rcases chunk_cases n hn (data.drop n) c h with h1 | ⟨h1, h2⟩
      · exact Or.inl h1
      · right
        have hle : n ≤ data.length := by
          rcases Nat.lt_or_ge data.length n with h' | h'
          · have : data.drop n = [] := List.drop_of_length_le (by omega)
            rw [this] at h; cases h
          · exact h'
        rw [List.length_drop] at h1 h2
        have hle2 : c.length ≤ data.length - n := by
          rw [h1]; exact Nat.mod_le _ _
        refine ⟨by rw [h1, ← Nat.mod_eq_sub_mod hle], ?_⟩
        conv => lhs; rw [h2, List.drop_drop]
        congr 1; omega
termination_by data => data.length

theorem encoded_line {data : List Nat} (hs : Survives data) (hb : ∀ b ∈ data, b < 256) {c : List Nat} (hc : c ∈ chunks 45 data) :
    ¬ EndsData (encodeLine c) ∧ ¬ Remark (encodeLine c) := by
  obtain ⟨hpos, hle⟩ := mem_chunks (by decide) hc
  obtain ⟨s1, s2, s3⟩ := hs
  have hcase := chunk_cases 45 (by decide) data c hc
  have hlen : c.length ≠ 1 ∧ c.length ≠ 27 := by
    rcases hcase with h | ⟨h, -⟩ <;> omega
  unfold encodeLine
  refine plain_line (small_not_white (by omega) (by omega)) ?_ ?_ ?_
  · exact ofNat_ne (m := 59) (by omega) (by decide) (by omega)
  · exact ofNat_ne (m := 33) (by omega) (by decide) (by omega)
  · intro h
    have h3 : c.length = 3 := by
      apply Classical.byContradiction
      intro h'
      exact ofNat_ne (m := 35) (by omega) (by decide) (by omega) h
    rcases hcase with h4 | ⟨h4, h5⟩
    · omega
    have h6 := s3 (by omega)
    have hcb : ∀ b ∈ c, b < 256 := by
      intro b hm; rw [h5] at hm; exact hb b (List.mem_of_mem_drop hm)
    match c, h3 with
    | [x, y, z], _ =>
      have hx : 4 ≤ x := by
        have : data.getD (data.length - 3) 0 = x := by
          have e := congrArg (fun l => l.getD 0 0) h5
          simp only [List.length_cons, List.length_nil, List.getD_eq_getElem?_getD, List.getElem?_drop] at e
          simpa using e.symm
        omega
      have hx2 := hcb x (by simp)
      refine ⟨Char.ofNat (32 + x / 4), _, rfl, small_not_white (by omega) (by omega)⟩

theorem encode_plain {name : Str} {data : List Nat} (hs : Survives data) (hb : ∀ b ∈ data, b < 256) :
    ∀ l ∈ encode name data, ¬ EndsData l ∧ ¬ Remark l := by
  intro l hl
  have p : ∀ {c : Char} {x : Str}, ¬ isWs c = true → c ≠ ';' → c ≠ '!' → c ≠ '#' → ¬ EndsData (c :: x) ∧ ¬ Remark (c :: x) :=
    fun h1 h2 h3 h4 => plain_line (fun h => h1 ((SrtDoc.white_iff _).2 h)) h2 h3 (fun h => absurd h h4)
  unfold encode at hl
  simp only [List.cons_append, List.mem_cons, List.mem_append, List.mem_map, List.not_mem_nil, or_false] at hl
  rcases hl with rfl | ⟨c, hc, rfl⟩ | rfl | rfl
  · exact p (by decide) (by decide) (by decide) (by decide)
  · exact encoded_line hs hb hc
  · exact p (by decide) (by decide) (by decide) (by decide)
  · exact p (by decide) (by decide) (by decide) (by decide)

/-- Data lines up to the end of the data. -/
theorem data_all {ds d : List Str} (h : Data ds d) (hp : ∀ l ∈ ds, ¬ Remark l) : d = ds := by
  induction h with
  | nil => rfl
  | line _ _ _ ih => rw [ih (fun l hl => hp l (by simp [hl]))]
  | remark _ hr _ _ => exact absurd hr (hp _ (by simp))

theorem data_no_end {ds d : List Str} (h : Data ds d) : ∀ l ∈ ds, ¬ EndsData l := by
  induction h with
  | nil => intro l hl; cases hl
  | line h1 _ _ ih => intro l hl; cases hl with
    | head => exact h1
    | tail _ hl => exact ih l hl
  | remark h1 _ _ ih => intro l hl; cases hl with
    | head => exact h1
    | tail _ hl => exact ih l hl

/-- Two splits of a list at the first element with a property. -/
theorem split_first {α : Type} {P : α → Prop} : ∀ {a b c d : List α}, a ++ b = c ++ d → (∀ x ∈ a, ¬ P x) → (∀ x ∈ c, ¬ P x) →
    (∀ x, b.head? = some x → P x) → (∀ x, d.head? = some x → P x) → a = c ∧ b = d
  | [], b, [], d, e, _, _, _, _ => ⟨rfl, e⟩
  | [], b, y :: c, d, e, _, hc, hb, _ => by
    simp only [List.nil_append] at e
    exact absurd (hb y (by rw [e]; rfl)) (hc y (by simp))
  | x :: a, b, [], d, e, ha, _, _, hd => by
    simp only [List.nil_append] at e
    exact absurd (hd x (by rw [← e]; rfl)) (ha x (by simp))
  | x :: a, b, y :: c, d, e, ha, hc, hb, hd => by
    obtain ⟨e1, e2⟩ := List.cons.inj e
    obtain ⟨h1, h2⟩ := split_first e2 (fun z hz => ha z (by simp [hz])) (fun z hz => hc z (by simp [hz])) hb hd
    exact ⟨by rw [e1, h1], h2⟩

/-- An embedded file at the head of a section. -/
theorem files_head {key l n : Str} {ds B : List Str} {fs : List (Str × List Str)} (h : FilesOf key (l :: (ds ++ B)) fs)
    (hl : Names1 key l n) (hd : ∀ x ∈ ds, ¬ EndsData x ∧ ¬ Remark x) (hB : ∀ m, B.head? = some m → EndsData m) :
    ∃ rest, fs = (n, ds) :: rest := by
  generalize hL : l :: (ds ++ B) = L at h
  cases h with
  | nil => cases hL
  | other h1 _ =>
    obtain ⟨rfl, -⟩ := List.cons.inj hL
    exact absurd hl (h1 n)
  | @file l' n' ds' d ls fs' h1 h2 h3 h4 =>
    obtain ⟨rfl, e⟩ := List.cons.inj hL
    obtain ⟨rfl, rfl⟩ := split_first (P := EndsData) e (fun x hx => (hd x hx).1) (data_no_end h2) hB h3
    have : n' = n := by
      have a := header_spec.2 h1
      have b := header_spec.2 hl
      rw [a] at b; exact Option.some.inj b
    rw [this, data_all h2 (fun x hx => (hd x hx).2)]
    exact ⟨_, rfl⟩

theorem names_not_end {key l n : Str} (hk : GoodKey key) (h : Names1 key l n) : ¬ EndsData l := by
  intro he
  have := header_ends hk (ends_spec.2 he)
  rw [header_spec.2 h] at this; cases this

/-- What stands after the end of an embedded file is read anew. -/
theorem files_skip {key : Str} (hk : GoodKey key) {L : List Str} {fs : List (Str × List Str)} (h : FilesOf key L fs) :
    ∀ {A X : List Str}, L = A ++ X → (A = [] ∨ ∃ m, A.getLast? = some m ∧ EndsData m) →
    ∃ f1 f2, fs = f1 ++ f2 ∧ FilesOf key X f2 := by
  induction h with
  | nil =>
    intro A X e _
    obtain ⟨-, rfl⟩ := List.append_eq_nil_iff.1 e.symm
    exact ⟨[], [], rfl, .nil⟩
  | @other l ls fs h1 h2 ih =>
    intro A X e hA
    cases A with
    | nil => exact ⟨[], fs, rfl, by rw [← show l :: ls = X from e]; exact .other h1 h2⟩
    | cons a A =>
      obtain ⟨rfl, e'⟩ := List.cons.inj e
      refine ih e' ?_
      rcases hA with hA | ⟨m, hm, he⟩
      · cases hA
      · cases A with
        | nil => exact Or.inl rfl
        | cons b A => exact Or.inr ⟨m, by rw [← hm]; rfl, he⟩
  | @file l n ds d ls fs h1 h2 h3 h4 ih =>
    intro A X e hA
    cases A with
    | nil => exact ⟨[], (n, d) :: fs, rfl, by rw [← show l :: (ds ++ ls) = X from e]; exact .file h1 h2 h3 h4⟩
    | cons a A =>
      obtain ⟨rfl, e'⟩ := List.cons.inj e
      rcases hA with hA | ⟨m, hm, he⟩
      · cases hA
      cases A with
      | nil =>
        have : l = m := Option.some.inj hm
        exact absurd (this ▸ he) (names_not_end hk h1)
      | cons b A =>
        have hm' : (b :: A).getLast? = some m := by rw [← hm]; rfl
        rcases List.append_eq_append_iff.1 e' with ⟨as, e1, e2⟩ | ⟨bs, e1, e2⟩
        · -- the data are the first lines
          obtain ⟨f1, f2, g1, g2⟩ := ih e2 (by
            cases as with
            | nil =>
              rw [List.append_nil] at e1
              exact absurd he (data_no_end h2 m (by rw [← e1]; exact List.mem_of_getLast? hm'))
            | cons c as =>
              refine Or.inr ⟨m, ?_, he⟩
              rw [← hm', e1, List.getLast?_append]
              cases hx : (c :: as).getLast? with
              | none => simp at hx
              | some y => rfl)
          exact ⟨(n, d) :: f1, f2, by rw [g1]; rfl, g2⟩
        · exact absurd he (data_no_end h2 m (by rw [e1]; exact List.mem_append_left _ (List.mem_of_getLast? hm')))

theorem fontname_good : GoodKey "fontname".toList := ⟨'f', "ontname".toList, rfl, by decide, by decide, by decide⟩
theorem filename_good : GoodKey "filename".toList := ⟨'f', "ilename".toList, rfl, by decide, by decide, by decide⟩

/-- A section of embedded fonts among those of a source. -/
theorem fonts_of {sf ef sf' ef' : Option (List Str)} {segs : List Seg} {ss : List Said} {us : List Str}
    (h : SectionsOf sf ef segs ss sf' ef' us) {g : Seg} (hg : g ∈ segs) (hr : Stripped g.raw "Fonts".toList) :
    ∃ l, Said.fonts l ∈ ss ∧ FilesOf "fontname".toList g.body l := by
  have differ : ∀ {n : Str}, Stripped g.raw n → n = "Fonts".toList := by
    intro n hn
    rw [← Handlers.stripped_eq hn, Handlers.stripped_eq hr]
  induction h with
  | nil => cases hg
  | info h1 _ _ ih =>
    cases hg with
    | head => exact absurd (differ h1) (by decide)
    | tail _ hg => obtain ⟨l, h2, h3⟩ := ih hg; exact ⟨l, .tail _ h2, h3⟩
  | styles h1 h1' _ _ ih =>
    cases hg with
    | head =>
      rw [differ h1] at h1'
      rcases h1' with h | h | h <;> exact absurd h (by decide)
    | tail _ hg => obtain ⟨l, h2, h3⟩ := ih hg; exact ⟨l, .tail _ h2, h3⟩
  | events h1 _ _ ih =>
    cases hg with
    | head => exact absurd (differ h1) (by decide)
    | tail _ hg => obtain ⟨l, h2, h3⟩ := ih hg; exact ⟨l, .tail _ h2, h3⟩
  | fonts h1 h1' _ ih =>
    cases hg with
    | head => exact ⟨_, .head _, h1'⟩
    | tail _ hg => obtain ⟨l, h2, h3⟩ := ih hg; exact ⟨l, .tail _ h2, h3⟩
  | graphics h1 _ _ ih =>
    cases hg with
    | head => exact absurd (differ h1) (by decide)
    | tail _ hg => obtain ⟨l, h2, h3⟩ := ih hg; exact ⟨l, .tail _ h2, h3⟩
  | unknown h1 h1' _ ih =>
    cases hg with
    | head => exact absurd (by rw [differ h1]; exact Or.inr (Or.inr (Or.inr (Or.inl rfl)))) h1'
    | tail _ hg => exact ih hg

/-- A section of embedded graphics among those of a source. -/
theorem graphics_of {sf ef sf' ef' : Option (List Str)} {segs : List Seg} {ss : List Said} {us : List Str}
    (h : SectionsOf sf ef segs ss sf' ef' us) {g : Seg} (hg : g ∈ segs) (hr : Stripped g.raw "Graphics".toList) :
    ∃ l, Said.graphics l ∈ ss ∧ FilesOf "filename".toList g.body l := by
  have differ : ∀ {n : Str}, Stripped g.raw n → n = "Graphics".toList := by
    intro n hn
    rw [← Handlers.stripped_eq hn, Handlers.stripped_eq hr]
  induction h with
  | nil => cases hg
  | info h1 _ _ ih =>
    cases hg with
    | head => exact absurd (differ h1) (by decide)
    | tail _ hg => obtain ⟨l, h2, h3⟩ := ih hg; exact ⟨l, .tail _ h2, h3⟩
  | styles h1 h1' _ _ ih =>
    cases hg with
    | head =>
      rw [differ h1] at h1'
      rcases h1' with h | h | h <;> exact absurd h (by decide)
    | tail _ hg => obtain ⟨l, h2, h3⟩ := ih hg; exact ⟨l, .tail _ h2, h3⟩
  | events h1 _ _ ih =>
    cases hg with
    | head => exact absurd (differ h1) (by decide)
    | tail _ hg => obtain ⟨l, h2, h3⟩ := ih hg; exact ⟨l, .tail _ h2, h3⟩
  | fonts h1 _ _ ih =>
    cases hg with
    | head => exact absurd (differ h1) (by decide)
    | tail _ hg => obtain ⟨l, h2, h3⟩ := ih hg; exact ⟨l, .tail _ h2, h3⟩
  | graphics h1 h1' _ ih =>
    cases hg with
    | head => exact ⟨_, .head _, h1'⟩
    | tail _ hg => obtain ⟨l, h2, h3⟩ := ih hg; exact ⟨l, .tail _ h2, h3⟩
  | unknown h1 h1' _ ih =>
    cases hg with
    | head => exact absurd (by rw [differ h1]; exact Or.inr (Or.inr (Or.inr (Or.inr rfl)))) h1'
    | tail _ hg => exact ih hg

end Verif.Media

namespace Verif.Media
open Verif
open Verif.Parser
open Verif.Spec.Script
open Verif.Spec.LineNo (LineStart Closed)
open Verif.Spec.EventCmd (White)

theorem header_of_closed {l : Str} (h : Opens l) (hc : ']' ∈ l) : ∃ raw, Header l raw := by
  obtain ⟨w, r, rfl, hw⟩ := h
  have hr : ']' ∈ r := by
    rcases List.mem_append.1 hc with h | h
    · exact absurd ((SrtDoc.white_iff _).2 (hw _ h)) (by decide)
    · cases h with
      | tail _ h => exact h
  cases e : splitOnce ']' r with
  | none => exact absurd hr (splitOnce_eq_none e)
  | some p =>
    obtain ⟨a, b⟩ := p
    obtain ⟨e1, e2⟩ := splitOnce_some e
    exact ⟨a, w, b, by rw [e1]; simp, hw, e2⟩

/-- Lines whose headers are closed fall into sections. -/
theorem closed_split : ∀ {L : List Str}, (∀ l ∈ L, Opens l → ']' ∈ l) →
    ∃ junk lines, L = junk ++ lines ∧ (∀ l ∈ junk, ¬ Opens l) ∧ ∀ o, ∃ segs, Segments o lines segs
  | [], _ => ⟨[], [], rfl, (by intro l hl; cases hl), fun o => ⟨[], .nil o⟩⟩
  | l :: L, h => by
    obtain ⟨junk, lines, rfl, hj, hs⟩ := closed_split (L := L) (fun x hx => h x (by simp [hx]))
    by_cases ho : Opens l
    · obtain ⟨raw, hr⟩ := header_of_closed ho (h l (by simp) ho)
      refine ⟨[], l :: (junk ++ lines), rfl, (by intro l hl; cases hl), fun o => ?_⟩
      obtain ⟨segs, hseg⟩ := hs (o + size l + 1 + sizes junk)
      exact ⟨_, .cons hr hj hseg⟩
    · refine ⟨l :: junk, lines, rfl, ?_, hs⟩
      intro x hx
      cases hx with
      | head => exact ho
      | tail _ hx => exact hj x hx

theorem sizes_append : ∀ A B : List Str, sizes (A ++ B) = sizes A + sizes B
  | [], B => by simp [sizes]
  | a :: A, B => by rw [List.cons_append, sizes, sizes, sizes_append A B]; omega

theorem segments_append {o : Nat} {L : List Str} {segs : List Seg} (h : Segments o L segs) : ∀ {M : List Str} {segs2 : List Seg},
    Segments (o + sizes L) M segs2 → Segments o (L ++ M) (segs ++ segs2) := by
  induction h with
  | nil o => intro M s2 h2; simpa [sizes] using h2
  | @cons o hd raw body rest segs h1 h2 _ ih =>
    intro M s2 h3
    have := ih (M := M) (segs2 := s2) (by
      rw [sizes, sizes_append] at h3
      have e : o + size hd + 1 + sizes body + sizes rest = o + (size hd + 1 + (sizes body + sizes rest)) := by omega
      rw [e]; exact h3)
    rw [List.cons_append, List.append_assoc]
    exact .cons h1 h2 this

/-- A byte order mark and the rest. -/
theorem bom_split (src : Str) : ∃ bom rest : Str, src = bom ++ rest ∧
    (bom = [Char.ofNat 0xFEFF] ∨ (bom = [] ∧ rest.head? ≠ some (Char.ofNat 0xFEFF))) := by
  by_cases h : src.head? = some (Char.ofNat 0xFEFF)
  · cases src with
    | nil => cases h
    | cons c s => rw [Option.some.inj h]; exact ⟨[Char.ofNat 0xFEFF], s, rfl, Or.inl rfl⟩
  · exact ⟨[], src, rfl, Or.inr ⟨rfl, h⟩⟩

theorem unlines_split (s : Str) : unlines (splitOn '\n' s) = s := by rw [unlines_eq, joinSep_splitOn]

/-- Each piece of a text is a line of it. -/
theorem piece_of {s l : Str} (h : l ∈ splitOn '\n' s) : ∃ pre post, s = pre ++ l ++ post ∧
    (pre = [] ∨ pre.getLast? = some '\n') ∧ (post = [] ∨ post.head? = some '\n') := by
  have key : ∀ L : List Str, l ∈ L → ∃ pre post, unlines L = pre ++ l ++ post ∧
      (pre = [] ∨ pre.getLast? = some '\n') ∧ (post = [] ∨ post.head? = some '\n') := by
    intro L
    induction L with
    | nil => intro h; cases h
    | cons m L ih =>
      intro h
      by_cases hne : L = []
      · subst hne
        rw [List.mem_singleton] at h
        exact ⟨[], [], by rw [h]; simp [unlines], Or.inl rfl, Or.inl rfl⟩
      · rw [unlines_cons hne]
        cases h with
        | head => exact ⟨[], '\n' :: unlines L, by simp, Or.inl rfl, Or.inr rfl⟩
        | tail _ h =>
          obtain ⟨pre, post, e, h1, h2⟩ := ih h
          refine ⟨m ++ '\n' :: pre, post, by rw [e]; simp, Or.inr ?_, h2⟩
          rcases h1 with h1 | h1
          · rw [h1]; simp
          · rw [List.getLast?_append]
            cases pre with
            | nil => simp
            | cons c p => rw [List.getLast?_cons_cons, h1]; rfl
  have := key _ h
  rwa [unlines_split] at this

theorem lineStart_append {bom pre : Str} (hb : bom = [Char.ofNat 0xFEFF] ∨ bom = []) (hp : pre = [] ∨ pre.getLast? = some '\n') :
    LineStart (bom ++ pre) := by
  rcases hp with hp | hp
  · rw [hp, List.append_nil]
    rcases hb with h | h
    · exact Or.inr (Or.inl h)
    · exact Or.inl h
  · right; right
    rw [List.getLast?_append, hp]; rfl

/-- Every closed source falls into sections. -/
theorem document_of_closed {src : Str} (hc : Closed src) : ∃ segs, Document src segs := by
  obtain ⟨bom, rest, e, hb⟩ := bom_split src
  obtain ⟨junk, lines, hL, hj, hs⟩ := closed_split (L := splitOn '\n' rest) (by
    intro l hl ho
    obtain ⟨pre, post, e1, h1, h2⟩ := piece_of hl
    exact hc (bom ++ pre) l post (by rw [e, e1]; simp) (lineStart_append (hb.imp id And.left) h1) (not_mem_of_mem_splitOn hl)
      h2 ho)
  obtain ⟨segs, hseg⟩ := hs (size bom + sizes junk)
  refine ⟨segs, bom, junk, rest, lines, e, hb, by rw [← hL, unlines_split], ?_, hj, hseg⟩
  rw [← hL]; intro l hl; exact not_mem_of_mem_splitOn hl

theorem unlines_snoc_append {A M : List Str} (hA : A ≠ []) (hM : M ≠ []) : unlines (A ++ M) = unlines A ++ '\n' :: unlines M := by
  induction A with
  | nil => exact absurd rfl hA
  | cons a A ih =>
    by_cases h : A = []
    · subst h; rw [List.singleton_append, unlines_cons hM]; rfl
    · rw [List.cons_append, unlines_cons (by simp [h]), ih h, unlines_cons h]; simp

/-- New sections after a closed source. -/
theorem document_append {c : Str} (hc : Closed c) {raw : Str} {hd : Str} {body : List Str} (hh : Header hd raw)
    (hb : ∀ l ∈ body, ¬ Opens l) (hnl : ∀ l ∈ hd :: body, '\n' ∉ l) :
    ∃ segs o, Document (c ++ (if endsWith ['\n'] c then [] else ['\n']) ++ unlines (hd :: body)) (segs ++ [⟨raw, o, body⟩]) := by
  obtain ⟨bom, rest, e, hbom⟩ := bom_split c
  -- the text before the added line end
  obtain ⟨t, x, hx, ht, hr⟩ : ∃ t x : Str, (x = [] ∨ x = ['\n']) ∧ rest = t ++ x ∧
      c ++ (if endsWith ['\n'] c then [] else ['\n']) = bom ++ t ++ ['\n'] := by
    by_cases hends : endsWith ['\n'] c = true
    · have : ∃ t, c = t ++ ['\n'] := by
        unfold endsWith at hends
        obtain ⟨r, hr⟩ := startsWith_iff.1 hends
        refine ⟨r.reverse, ?_⟩
        have := congrArg List.reverse hr
        simpa using this
      obtain ⟨t', ht'⟩ := this
      have : ∃ t, rest = t ++ ['\n'] := by
        rcases hbom with h | ⟨h, -⟩
        · rw [h] at e
          cases t' with
          | nil => rw [ht'] at e; exact absurd (List.cons.inj e).1 (by decide)
          | cons d t' =>
            rw [ht'] at e
            exact ⟨t', (List.cons.inj e).2.symm⟩
        · rw [h] at e; exact ⟨t', by rw [← ht', e]; rfl⟩
      obtain ⟨t, ht⟩ := this
      exact ⟨t, ['\n'], Or.inr rfl, ht, by rw [if_pos hends, e, ht]; simp⟩
    · exact ⟨rest, [], Or.inl rfl, by simp, by rw [if_neg hends, e]⟩
  obtain ⟨junk, lines, hL, hj, hs⟩ := closed_split (L := splitOn '\n' t) (by
    intro l hl ho
    obtain ⟨pre, post, e1, h1, h2⟩ := piece_of hl
    refine hc (bom ++ pre) l (post ++ x) (by rw [e, ht, e1]; simp) (lineStart_append (hbom.imp id And.left) h1)
      (not_mem_of_mem_splitOn hl) ?_ ho
    rcases h2 with h2 | h2
    · rw [h2]
      rcases hx with hx | hx <;> simp [hx]
    · right
      cases post with
      | nil => cases h2
      | cons c p => exact h2)
  obtain ⟨segs, hseg⟩ := hs (size bom + sizes junk)
  refine ⟨segs, size bom + sizes junk + sizes lines + size hd + 1, bom, junk, t ++ '\n' :: unlines (hd :: body),
    lines ++ hd :: body, ?_, ?_, ?_, ?_, hj, ?_⟩
  · rw [hr]; simp
  · rcases hbom with h | ⟨h, h2⟩
    · exact Or.inl h
    · refine Or.inr ⟨h, ?_⟩
      cases t with
      | nil => exact (by decide : some '\n' ≠ some (Char.ofNat 0xFEFF))
      | cons d t => rw [ht] at h2; exact h2
  · rw [← List.append_assoc, ← hL, unlines_snoc_append (splitOn_ne_nil _ _) (by simp), unlines_split]
  · rw [← List.append_assoc, ← hL]
    intro l hl
    rcases List.mem_append.1 hl with h | h
    · exact not_mem_of_mem_splitOn h
    · exact hnl l h
  · refine segments_append hseg ?_
    have := Segments.cons (o := size bom + sizes junk + sizes lines) (rest := []) hh hb (.nil _)
    rwa [List.append_nil] at this

end Verif.Media
