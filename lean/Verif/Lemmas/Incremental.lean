import Verif.Lemmas.Contents
import Verif.Lemmas.UpdateX
import Verif.Props.Script
import Verif.Spec.Incremental
namespace Verif.Incremental
open Verif
open Verif.Parser
open Verif.Contents
open Verif.Update (Kind kind kind_eq)
open Verif.Spec.Script
open Verif.Spec.Update (says Says kindOf places)
open Verif.Spec.Incremental
open Verif.Spec.InfoCmd (Stripped)

/-! ## What a source made of parts says -/

/-- What the lines of a section of a kind say. -/
def cont : Kind → List Str → Spec.Update.Says
  | .info, b => .info (b.flatMap infoLine)
  | .styles, b => .styles (stylesC none b).1
  | .events, b => .events (eventsC none b).1
  | .fonts, b => .fonts (binLines "fontname".toList none b)
  | .graphics, b => .graphics (binLines "filename".toList none b)

/-- Without places. -/
def drop : Said → Spec.Update.Says
  | .info f => .info f
  | .styles l => .styles (l.map (fun x => x.1))
  | .events l => .events (l.map (fun x => x.1))
  | .fonts l => .fonts l
  | .graphics l => .graphics l

theorem drop_said (s : Section) : drop (said s) = says s := by
  cases s <;> simp [drop, said, says, place, Function.comp_def]

theorem good_font : GoodKey "fontname".toList := ⟨'f', "ontname".toList, rfl, by decide, by decide, by decide⟩
theorem good_graphic : GoodKey "filename".toList := ⟨'f', "ilename".toList, rfl, by decide, by decide, by decide⟩

theorem cont_blank (k : Kind) (b : List Str) : cont k (b ++ [[]]) = cont k b := by
  cases k with
  | info => simp only [cont, info_blank]
  | styles => simp only [cont, styles_blank]
  | events => simp only [cont, events_blank]
  | fonts => simp only [cont, files_blank good_font]
  | graphics => simp only [cont, files_blank good_graphic]

/-- The name of a kind of section. -/
def rawOf : Kind → Str
  | .info => "Script Info".toList
  | .styles => "V4+ Styles".toList
  | .events => "Events".toList
  | .fonts => "Fonts".toList
  | .graphics => "Graphics".toList

theorem usual_raw (k : Kind) : usual k = '[' :: rawOf k ++ [']'] := by cases k <;> rfl

theorem header_usual (k : Kind) : Header (usual k) (rawOf k) :=
  ⟨[], [], by rw [usual_raw]; simp, by simp, by cases k <;> decide⟩

/-- The segments of a source made of parts. -/
def segsOf : Nat → List (Kind × List Line) → List Seg
  | _, [] => []
  | o, (k, b) :: ps => ⟨rawOf k, o + size (usual k) + 1, b⟩ :: segsOf (o + size (usual k) + 1 + sizes b) ps

theorem segments_parts (parts : List (Kind × List Line)) (h : ∀ p ∈ parts, ∀ l ∈ p.2, ¬ Opens l) : ∀ o,
    Segments o (parts.flatMap (fun p => usual p.1 :: p.2)) (segsOf o parts) := by
  induction parts with
  | nil => intro o; exact .nil o
  | cons p ps ih =>
    intro o
    rw [List.flatMap_cons, List.cons_append]
    exact .cons (header_usual p.1) (h p (by simp)) (ih (fun q hq => h q (by simp [hq])) _)

theorem trim_raw (k : Kind) : trim (rawOf k) = rawOf k := by cases k <;> decide

theorem stripped_raw {k : Kind} {n : Str} (h : Stripped (rawOf k) n) : n = rawOf k := by
  rw [← trim_raw k]; exact (Handlers.stripped_eq h).symm

theorem sections_parts (parts : List (Kind × List Line)) : ∀ {o sf ef ss sf' ef' us}, SectionsOf sf ef (segsOf o parts) ss sf' ef' us →
    ss.map drop = parts.map (fun p => cont p.1 p.2) := by
  induction parts with
  | nil => intro o sf ef ss sf' ef' us h; cases h; rfl
  | cons p ps ih =>
    intro o sf ef ss sf' ef' us h
    obtain ⟨k, b⟩ := p
    rw [segsOf] at h
    cases h with
    | info h1 h2 h3 =>
      have := stripped_raw h1
      have hk : k = .info := by cases k <;> first | rfl | (exact absurd this (by decide))
      subst hk
      rw [List.map_cons, List.map_cons, ih h3]
      simp only [drop, cont, infoOf_eq h2]
    | styles h1 hn h2 h3 =>
      have := stripped_raw h1
      subst this
      have hk : k = .styles := by
        cases k <;> first | rfl | (rcases hn with h | h | h <;> exact absurd h (by decide))
      subst hk
      rw [List.map_cons, List.map_cons, ih h3]
      simp only [drop, cont, ← stylesOf_eq h2]
    | events h1 h2 h3 =>
      have := stripped_raw h1
      have hk : k = .events := by cases k <;> first | rfl | (exact absurd this (by decide))
      subst hk
      rw [List.map_cons, List.map_cons, ih h3]
      simp only [drop, cont, ← eventsOf_eq h2]
    | fonts h1 h2 h3 =>
      have := stripped_raw h1
      have hk : k = .fonts := by cases k <;> first | rfl | (exact absurd this (by decide))
      subst hk
      rw [List.map_cons, List.map_cons, ih h3]
      simp only [drop, cont, filesOf_eq good_font h2]
    | graphics h1 h2 h3 =>
      have := stripped_raw h1
      have hk : k = .graphics := by cases k <;> first | rfl | (exact absurd this (by decide))
      subst hk
      rw [List.map_cons, List.map_cons, ih h3]
      simp only [drop, cont, filesOf_eq good_graphic h2]
    | unknown h1 hn h3 =>
      have := stripped_raw h1
      subst this
      exact absurd (by cases k <;> decide) (show ¬ (rawOf k = "Script Info".toList ∨ (rawOf k = "V4+ Styles".toList ∨ rawOf k = "V4 Styles".toList ∨ rawOf k = "V4++ Styles".toList) ∨ rawOf k = "Events".toList ∨ rawOf k = "Fonts".toList ∨ rawOf k = "Graphics".toList) from hn)

theorem usual_feed (k : Kind) : '\n' ∉ usual k := by cases k <;> decide

/-- The sections of a source made of parts. -/
theorem parse_lines {first : List Line} {parts : List (Kind × List Line)} (hf : ∀ l ∈ first, '\n' ∉ l ∧ ¬ Opens l)
    (hp : ∀ p ∈ parts, ∀ l ∈ p.2, '\n' ∉ l ∧ ¬ Opens l)
    (hb : (source first parts).head? ≠ some (Char.ofNat 0xFEFF)) (hsize : size (source first parts) ≤ 50 * 1024 * 1024) :
    ∃ s, parse (source first parts) = some s ∧ s.sections.map says = parts.map (fun p => cont p.1 p.2) := by
  have hd : Document (source first parts) (segsOf (size [] + sizes first) parts) := by
    refine ⟨[], first, source first parts, parts.flatMap (fun p => usual p.1 :: p.2), rfl, .inr ⟨rfl, hb⟩, rfl, ?_, fun l hl => (hf l hl).2, ?_⟩
    · intro l hl
      rcases List.mem_append.1 hl with hl | hl
      · exact (hf l hl).1
      · obtain ⟨p, h1, h2⟩ := List.mem_flatMap.1 hl
        rcases List.mem_cons.1 h2 with rfl | h2
        · exact usual_feed _
        · exact (hp p h1 l h2).1
    · exact segments_parts parts (fun p h1 l h2 => (hp p h1 l h2).2) _
  obtain ⟨s, ss, us, h1, h2, h3, _⟩ := C09_sections_partial hsize hd
  refine ⟨s, h1, ?_⟩
  rw [← sections_parts parts h2, ← h3, List.map_map]
  apply List.map_congr_left
  intro x _
  exact (drop_said x).symm

theorem parse_source {first : List Line} {parts : List (Kind × List Line)} (hf : ∀ l ∈ first, Clean l) (hp : ∀ p ∈ parts, ∀ l ∈ p.2, Clean l)
    (hb : (source first parts).head? ≠ some (Char.ofNat 0xFEFF)) (hsize : size (source first parts) ≤ 50 * 1024 * 1024) :
    ∃ s, parse (source first parts) = some s ∧ s.sections.map says = parts.map (fun p => cont p.1 p.2) :=
  parse_lines (fun l hl => ⟨(hf l hl).1, (hf l hl).2.1⟩) (fun p h1 l h2 => ⟨(hp p h1 l h2).1, (hp p h1 l h2).2.1⟩) hb hsize

theorem kindOf_cont {s : Section} {k : Kind} {b : List Str} (h : says s = cont k b) : kindOf s = k := by
  cases s <;> cases k <;> first | rfl | (simp [says, cont] at h)

/-! ## Finding headers -/

/-- A pattern without line feeds is found in a line. -/
theorem infix_unlines {H : Str} (hn : H ≠ []) (hf : '\n' ∉ H) : ∀ (L : List Str) (a b : Str), unlines L = a ++ H ++ b → ∃ l ∈ L, H <:+: l := by
  intro L
  induction L with
  | nil =>
    intro a b h
    have := congrArg List.length h
    simp only [unlines, List.length_nil, List.length_append] at this
    exact absurd (List.length_eq_zero_iff.1 (by omega)) hn
  | cons l L ih =>
    intro a b h
    by_cases hL : L = []
    · subst hL
      exact ⟨l, by simp, a, b, h.symm⟩
    · rw [unlines_cons hL, List.append_assoc] at h
      rcases List.append_eq_append_iff.1 h with ⟨c, e1, e2⟩ | ⟨c, e1, e2⟩
      · cases c with
        | nil =>
          rw [List.nil_append] at e2
          cases H with
          | nil => exact absurd rfl hn
          | cons x H =>
            have := (List.cons.inj e2).1
            subst this
            exact absurd (by simp) hf
        | cons x c =>
          have e3 := (List.cons.inj e2).2
          obtain ⟨m, h1, h2⟩ := ih c b (by rw [e3]; simp)
          exact ⟨m, by simp [h1], h2⟩
      · rcases List.append_eq_append_iff.1 e2 with ⟨d, e3, e4⟩ | ⟨d, e3, e4⟩
        · exact ⟨l, by simp, a, d, by rw [e1, e3]; simp⟩
        · cases d with
          | nil => exact ⟨l, by simp, a, [], by rw [e1, e3]; simp⟩
          | cons x d =>
            have := (List.cons.inj e4).1
            subst this
            exact absurd (by rw [e3]; simp) hf

/-- Lines each with its end. -/
def ended : List Str → Str
  | [] => []
  | l :: L => l ++ '\n' :: ended L

theorem unlines_append (A : List Str) {B : List Str} (h : B ≠ []) : unlines (A ++ B) = ended A ++ unlines B := by
  induction A with
  | nil => rfl
  | cons a A ih =>
    rw [List.cons_append, unlines_cons (by simp [h]), ih, ended]
    simp

theorem ended_unlines (A : List Str) : ended A = unlines (A ++ [[]]) := by
  rw [unlines_append A (by simp)]
  show ended A = ended A ++ []
  simp

/-- What follows a line. -/
def after : List Str → Str
  | [] => []
  | l :: L => '\n' :: unlines (l :: L)

theorem unlines_after (l : Str) (L : List Str) : unlines (l :: L) = l ++ after L := by
  cases L with
  | nil => simp [unlines, after]
  | cons m L => rw [unlines_cons (by simp)]; rfl

/-- Ended lines end with a line feed. -/
theorem ended_last (A : List Str) : A = [] ∨ ∃ t, ended A = t ++ ['\n'] := by
  induction A with
  | nil => exact .inl rfl
  | cons a A ih =>
    right
    rw [ended]
    rcases ih with rfl | ⟨t, h⟩
    · exact ⟨a, rfl⟩
    · exact ⟨a ++ '\n' :: t, by rw [h]; simp⟩

/-- A pattern is found at the beginning of the first line that contains it. -/
theorem find_line {x : Char} {H : Str} (hf : '\n' ∉ x :: H) {A B : List Str} (r : Str) (hA : ∀ l ∈ A, ¬ (x :: H) <:+: l) :
    splitOnceStr (x :: H) (unlines (A ++ (x :: H ++ r) :: B)) = some (ended A, r ++ after B) := by
  rw [unlines_append A (by simp), unlines_after, List.append_assoc, ← List.append_assoc]
  apply splitOnceStr_first
  intro a' b' e
  apply Nat.le_of_not_lt
  intro hlt
  rw [List.append_assoc, List.append_assoc] at e
  rcases List.append_eq_append_iff.1 e with ⟨c, e1, _⟩ | ⟨c, e1, e2⟩
  · have := congrArg List.length e1
    simp at this
    omega
  · rcases List.append_eq_append_iff.1 e2 with ⟨d, e3, e4⟩ | ⟨d, e3, e4⟩
    · -- the occurrence lies in the lines before
      have := infix_unlines (by simp) hf (A ++ [[]]) a' d (by rw [← ended_unlines, e1, e3]; simp)
      obtain ⟨l, h1, h2⟩ := this
      rcases List.mem_append.1 h1 with h1 | h1
      · exact hA l h1 h2
      · rw [List.mem_singleton.1 h1] at h2
        have := h2.length_le
        simp at this
    · -- it begins there and goes on
      rcases ended_last A with rfl | ⟨t, ht⟩
      · simp [ended] at hlt
      · have hc : c ≠ [] := by
          rintro rfl
          rw [List.append_nil] at e1
          rw [e1] at hlt
          omega
        have hl : c.getLast? = some '\n' := by
          have := congrArg List.getLast? e1
          rw [ht, List.getLast?_append, List.getLast?_append] at this
          cases hcl : c.getLast? with
          | none => exact absurd (List.getLast?_eq_none_iff.1 hcl) hc
          | some y => rw [hcl] at this; simpa using this.symm
        exact hf (by rw [e3]; exact List.mem_append_left _ (List.mem_of_getLast? hl))

/-- The first line that contains a header is the header. -/
theorem find_header {x : Char} {H : Str} (hf : '\n' ∉ x :: H) {A B : List Str} (hA : ∀ l ∈ A, ¬ (x :: H) <:+: l) :
    splitOnceStr (x :: H) (unlines (A ++ (x :: H) :: B)) = some (ended A, after B) := by
  have := find_line hf (B := B) [] hA
  rwa [List.append_nil] at this

theorem usual_headerOf (k : Kind) : headerOf k = usual k := by cases k <;> rfl

/-- No header contains another. -/
theorem usual_infix {k k' : Kind} (h : usual k <:+: usual k') : k = k' := by
  have key : ∀ k k' : Kind, k ≠ k' → containsStr (usual k) (usual k') = false := by
    intro k k'; cases k <;> cases k' <;> decide
  by_cases e : k = k'
  · exact e
  · obtain ⟨a, b, hab⟩ := h
    exact absurd hab.symm (containsStr_false.1 (key k k' e) a b)

theorem find_usual {k : Kind} {A B : List Str} (hA : ∀ l ∈ A, ¬ usual k <:+: l) :
    splitOnceStr (usual k) (unlines (A ++ usual k :: B)) = some (ended A, after B) := by
  have := usual_feed k
  rw [usual_raw] at *
  exact find_header this hA

theorem find_usual_after {k : Kind} {A B : List Str} (hA : ∀ l ∈ A, ¬ usual k <:+: l) :
    splitOnceStr (usual k) (after (A ++ usual k :: B)) = some ('\n' :: ended A, after B) := by
  have h1 : after (A ++ usual k :: B) = unlines (([] :: A) ++ usual k :: B) := by
    rw [List.cons_append, unlines_cons (by simp)]
    cases hh : A ++ usual k :: B with
    | nil => simp at hh
    | cons l L => rfl
  rw [h1, find_usual (A := [] :: A)]
  · rfl
  · intro l hl
    rcases List.mem_cons.1 hl with rfl | hl
    · intro h
      have := h.length_le
      rw [usual_raw] at this
      simp at this
    · exact hA l hl

/-- The text of a section. -/
theorem sectionText_parts {first : List Line} {A B : List (Kind × List Line)} {k : Kind} {b : List Line}
    (hf : ∀ l ∈ first, Clean l) (hp : ∀ p ∈ A ++ (k, b) :: B, ∀ l ∈ p.2, Clean l) (hk : ((A ++ (k, b) :: B).map (·.1)).Nodup) :
    sectionText (source first (A ++ (k, b) :: B)) k (B.head?.map (·.1)) = some (source [] [(k, if B = [] then b else b ++ [[]])]) := by
  have hA : ∀ l ∈ first ++ A.flatMap (fun p => usual p.1 :: p.2), ¬ usual k <:+: l := by
    intro l hl h
    rcases List.mem_append.1 hl with hl | hl
    · exact (hf l hl).2.2 k h
    · obtain ⟨p, h1, h2⟩ := List.mem_flatMap.1 hl
      rcases List.mem_cons.1 h2 with rfl | h2
      · have := usual_infix h
        rw [List.map_append, List.nodup_append] at hk
        exact hk.2.2 p.1 (List.mem_map_of_mem h1) k (by simp) this.symm
      · exact (hp p (by simp [h1]) l h2).2.2 k h
  have e : source first (A ++ (k, b) :: B) =
      unlines ((first ++ A.flatMap (fun p => usual p.1 :: p.2)) ++ usual k :: (b ++ B.flatMap (fun p => usual p.1 :: p.2))) := by
    unfold source
    rw [List.flatMap_append, List.flatMap_cons]
    simp
  unfold sectionText
  rw [e, usual_headerOf, find_usual hA]
  cases B with
  | nil =>
    simp only [List.head?_nil, Option.map_none, List.flatMap_nil, List.append_nil, if_true]
    unfold source
    simp only [List.flatMap_cons, List.flatMap_nil, List.append_nil, List.nil_append, unlines_after]
  | cons p B =>
    have hb : ∀ l ∈ b, ¬ usual p.1 <:+: l := fun l hl => (hp (k, b) (by simp) l hl).2.2 p.1
    simp only [List.head?_cons, Option.map_some, List.flatMap_cons, List.cons_append, usual_headerOf, find_usual_after hb]
    unfold source
    simp only [List.flatMap_cons, List.flatMap_nil, List.append_nil, List.nil_append, reduceCtorEq, if_false]
    rw [unlines_cons (by simp), ended_unlines]

theorem clean_nil : Clean [] := by
  refine ⟨by simp, ?_, ?_⟩
  · rintro ⟨w, r, h, _⟩; simp at h
  · intro k h
    have := h.length_le
    rw [usual_raw] at this
    simp at this

theorem size_ended (A : List Str) : byteLen (ended A) = sizes A := by
  induction A with
  | nil => rfl
  | cons a A ih => rw [ended, byteLen_append, byteLen_cons, ih, sizes, size_eq, show Char.utf8Size '\n' = 1 by decide]; omega

/-- A section parsed anew says what its lines say. -/
theorem reparse_parts {first : List Line} {A B : List (Kind × List Line)} {k : Kind} {b : List Line}
    (hf : ∀ l ∈ first, Clean l) (hp : ∀ p ∈ A ++ (k, b) :: B, ∀ l ∈ p.2, Clean l) (hk : ((A ++ (k, b) :: B).map (·.1)).Nodup)
    (hsize : size (source first (A ++ (k, b) :: B)) ≤ 50 * 1024 * 1024) :
    ∃ sec, reparse (source first (A ++ (k, b) :: B)) k (B.head?.map (·.1)) = some sec ∧ says sec = cont k b := by
  unfold reparse
  rw [sectionText_parts hf hp hk]
  have hb : ∀ l ∈ b, Clean l := hp (k, b) (by simp)
  have hc : ∀ p ∈ [(k, if B = [] then b else b ++ [[]])], ∀ l ∈ p.2, Clean l := by
    intro p hp l hl
    rw [List.mem_singleton.1 hp] at hl
    by_cases hB : B = []
    · rw [if_pos hB] at hl; exact hb l hl
    · rw [if_neg hB] at hl
      rcases List.mem_append.1 hl with hl | hl
      · exact hb l hl
      · rw [List.mem_singleton.1 hl]; exact clean_nil
  have hs : size (source [] [(k, if B = [] then b else b ++ [[]])]) ≤ size (source first (A ++ (k, b) :: B)) := by
    rw [size_eq, size_eq]
    have e : source first (A ++ (k, b) :: B) =
        unlines ((first ++ A.flatMap (fun p => usual p.1 :: p.2)) ++ usual k :: (b ++ B.flatMap (fun p => usual p.1 :: p.2))) := by
      unfold source
      rw [List.flatMap_append, List.flatMap_cons]
      simp
    rw [e, unlines_append _ (by simp), byteLen_append]
    cases B with
    | nil => simp [source]
    | cons p B =>
      have e2 : source [] [(k, if p :: B = [] then b else b ++ [[]])] = ended (usual k :: b) := by
        rw [ended_unlines]; simp [source]
      rw [e2, List.flatMap_cons, List.cons_append, ← List.cons_append, unlines_append (usual k :: b) (by simp), byteLen_append]
      omega
  obtain ⟨s, h1, h2⟩ := parse_source (first := []) (by simp) hc (by
    have : (source [] [(k, if B = [] then b else b ++ [[]])]).head? = some '[' := by
      unfold source
      simp only [List.flatMap_cons, List.flatMap_nil, List.append_nil, List.nil_append, unlines_after, usual_raw]
      rfl
    rw [this]; decide) (Nat.le_trans hs hsize)
  simp only [h1, Option.bind_some]
  rw [List.map_cons, List.map_nil] at h2
  cases hsec : s.sections with
  | nil => rw [hsec] at h2; cases h2
  | cons x l =>
    rw [hsec, List.map_cons] at h2
    have hx : says x = cont k b := by
      have := (List.cons.inj h2).1
      rw [this]
      by_cases hB : B = []
      · simp only [if_pos hB]
      · simp only [if_neg hB, cont_blank]
    refine ⟨x, ?_, hx⟩
    rw [List.find?_cons, kind_eq, kindOf_cont hx]
    simp

/-! ## The loop -/

theorem says_moved (c : TextChange) (s : Section) : says (movedSection c s) = says s := by
  cases s <;> simp [movedSection, says, Function.comp_def]

theorem says_keep (c : TextChange) (s : Section) : says (keep c s) = says s := by
  unfold keep
  cases Update.span s with
  | none => rfl
  | some sp =>
    simp only
    by_cases h : c.stop ≤ sp.start
    · rw [if_pos h, says_moved]
    · rw [if_neg h]

theorem touches_iff {c : TextChange} {s : Section} : (Update.span s).any (touches c) = true ↔ Touched c s := by
  have key : ∀ sp : Span, touches c sp = true ↔ ((c.start < sp.stop ∧ sp.start < c.stop) ∨ (c.start = c.stop ∧ c.start = sp.stop)) := by
    intro sp
    unfold touches
    simp only [Bool.or_eq_true, Bool.and_eq_true, decide_eq_true_eq]
  unfold Touched
  rcases Update.span_places s with h | ⟨f, sp, rfl⟩
  · rw [h]
    unfold Update.merged
    cases ha : (places s).head? with
    | none => simp
    | some a =>
      cases hb : (places s).getLast? with
      | none => simp
      | some b =>
        simp only [Option.any_some, key, Option.some.injEq]
        exact ⟨fun h => ⟨a, b, rfl, rfl, h⟩, fun ⟨x, y, h1, h2, h3⟩ => by subst h1; subst h2; exact h3⟩
  · show touches c sp = true ↔ ∃ a b, some sp = some a ∧ some sp = some b ∧ _
    rw [key]
    constructor
    · intro h; exact ⟨sp, sp, rfl, rfl, h⟩
    · rintro ⟨a, b, h1, h2, h3⟩; cases h1; cases h2; exact h3

theorem mem_affected {s : Script} {c : TextChange} {k : Kind} : k ∈ affected s c ↔ ∃ sec ∈ s.sections, kindOf sec = k ∧ Touched c sec := by
  unfold affected
  simp only [List.mem_map, List.mem_filter, touches_iff, kind_eq]
  exact ⟨fun ⟨x, ⟨h1, h2⟩, h3⟩ => ⟨x, h1, h3, h2⟩, fun ⟨x, h1, h3, h2⟩ => ⟨x, ⟨h1, h2⟩, h3⟩⟩

theorem renew_parts {first : List Line} {aff : List Kind} {c : TextChange} (hf : ∀ l ∈ first, Clean l) : ∀ (secs : List Section)
    (B old A : List (Kind × List Line)), (∀ p ∈ A ++ B, ∀ l ∈ p.2, Clean l) → ((A ++ B).map (·.1)).Nodup →
    size (source first (A ++ B)) ≤ 50 * 1024 * 1024 → secs.map says = old.map (fun p => cont p.1 p.2) → B.map (·.1) = old.map (·.1) →
    (∀ q ∈ old.zip B, q.1.2 ≠ q.2.2 → q.1.1 ∈ aff) →
    (renew (source first (A ++ B)) c aff secs).map says = B.map (fun p => cont p.1 p.2) := by
  intro secs
  induction secs with
  | nil =>
    intro B old A _ _ _ h1 h2 _
    have : old = [] := by cases old with | nil => rfl | cons => simp at h1
    subst this
    have : B = [] := by cases B with | nil => rfl | cons => simp at h2
    subst this
    rfl
  | cons sec secs ih =>
    intro B old A hp hk hsize h1 h2 h3
    cases old with
    | nil => simp at h1
    | cons o old =>
    cases B with
    | nil => simp at h2
    | cons p B =>
    obtain ⟨k, b⟩ := p
    obtain ⟨ko, bo⟩ := o
    simp only [List.map_cons, List.cons.injEq] at h1 h2
    obtain ⟨hs, h1⟩ := h1
    obtain ⟨rfl, h2⟩ := h2
    have hsk := kindOf_cont hs
    have hnext : secs.head?.map kind = B.head?.map (·.1) := by
      have e1 : secs.map kind = B.map (·.1) := by
        rw [h2]
        clear ih hp hk hsize hs h3 hsk h2
        induction secs generalizing old with
        | nil => cases old with | nil => rfl | cons => simp at h1
        | cons x xs ih => cases old with
          | nil => simp at h1
          | cons y ys =>
            simp only [List.map_cons, List.cons.injEq] at h1
            rw [List.map_cons, List.map_cons, ih ys h1.2, kind_eq, kindOf_cont h1.1]
      have := congrArg List.head? e1
      simpa using this
    have e : A ++ (k, b) :: B = (A ++ [(k, b)]) ++ B := by simp
    have hrest := ih B old (A ++ [(k, b)]) (by rw [← e]; exact hp) (by rw [← e]; exact hk) (by rw [← e]; exact hsize) h1 h2
      (fun q hq => h3 q (by simp [hq]))
    rw [← e] at hrest
    rw [renew, List.map_append, hrest, List.map_cons]
    have : ∀ {l : List Spec.Update.Says} {x}, l = [x] → l ++ B.map (fun p => cont p.1 p.2) = x :: B.map (fun p => cont p.1 p.2) := by
      intro l x h; rw [h]; rfl
    apply this
    rw [kind_eq, hsk]
    by_cases ha : k ∈ aff
    · rw [if_pos (by simpa using ha), hnext]
      obtain ⟨x, g1, g2⟩ := reparse_parts hf hp hk hsize
      rw [g1]
      simp [g2]
    · rw [if_neg (by simpa using ha)]
      have : bo = b := by
        apply Classical.byContradiction
        intro hne
        exact ha (h3 ((k, bo), (k, b)) (by simp) hne)
      subst this
      simp [says_keep, hs]

end Verif.Incremental
