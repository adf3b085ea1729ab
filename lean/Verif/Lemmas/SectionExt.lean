import Verif.Lemmas.Script
import Verif.Model.SectionExt
import Verif.Spec.SectionExt
/-! Lemmas about parsing with section processors. -/
namespace Verif.SectionExt
open Verif Verif.Parser Verif.Spec.Script Verif.Spec.SectionExt
open Verif.Spec.EventCmd (White)
open Verif.Spec.InfoCmd (Stripped)

theorem plain_append (a b : List Note) : plain (a ++ b) = plain a ++ plain b := List.filterMap_append
theorem from_append (a b : List Note) : fromProcessors (a ++ b) = fromProcessors a ++ fromProcessors b :=
  List.filterMap_append
theorem hints_append (a b : List Note) : hints (a ++ b) = hints a ++ hints b := List.filterMap_append

theorem plain_base (l : List Issue) : plain (l.map .base) = l := by
  induction l with
  | nil => rfl
  | cons i l ih => simpa [plain] using ih

theorem from_base (l : List Issue) : fromProcessors (l.map .base) = [] := by
  induction l with
  | nil => rfl
  | cons i l ih => simpa [fromProcessors] using ih

theorem hints_base (l : List Issue) : hints (l.map .base) = [] := by
  induction l with
  | nil => rfl
  | cons i l ih => simpa [hints] using ih

/-! ## The same states -/

theorem collect_state : ∀ (n : Nat) (ls : List Str) (p : St), (collect n ls p).map (·.2) = skipToNext n p
  | 0, _, _ => rfl
  | n + 1, ls, p => by
    rw [collect, skipToNext]
    by_cases h0 : p.rest = []
    · rw [if_pos h0, if_pos h0]; rfl
    rw [if_neg h0, if_neg h0]
    by_cases h1 : atNext p.rest = true
    · rw [if_pos h1, if_pos h1]; rfl
    rw [if_neg h1, if_neg h1]
    exact collect_state n _ _

theorem skipHint_state : ∀ (n : Nat) (h : Option Hint) (p : St), (skipHint n h p).map (·.2) = skipToNext n p
  | 0, _, _ => rfl
  | n + 1, h, p => by
    rw [skipHint, skipToNext]
    by_cases h0 : p.rest = []
    · rw [if_pos h0, if_pos h0]; rfl
    rw [if_neg h0, if_neg h0]
    by_cases h1 : atNext p.rest = true
    · rw [if_pos h1, if_pos h1]; rfl
    rw [if_neg h1, if_neg h1]
    exact skipHint_state n _ _

theorem skipHint_at {n : Nat} {h : Option Hint} {p : St} (hp : p.rest = [] ∨ atNext p.rest = true) :
    skipHint (n + 1) h p = some (h, p) := by
  rw [skipHint]
  rcases hp with hp | hp
  · rw [if_pos hp]
  · by_cases h0 : p.rest = []
    · rw [if_pos h0]
    · rw [if_neg h0, if_pos hp]

/-- What a registry adds to an unknown section. -/
def saidOf (reg : Option Registry) (name : Str) (line : Nat) (ls : List Str) : List Note :=
  match reg with
  | none => []
  | some r => match processSection r name name ls with
    | some .processed => [.processed name line]
    | some (.failed msg) => [.failed name msg line]
    | some .ignored => []
    | none => []

theorem saidOf_plain (reg : Option Registry) (name : Str) (line : Nat) (ls : List Str) :
    plain (saidOf reg name line ls) = [] ∧ hints (saidOf reg name line ls) = [] := by
  unfold saidOf
  split
  · exact ⟨rfl, rfl⟩
  · split <;> exact ⟨rfl, rfl⟩

/-- An unknown section, all at once. -/
theorem unknownBody_eq (reg : Option Registry) (name : Str) (p : St) : ∃ ls h q,
    (reg ≠ none → collect (p.rest.length + 1) [] p = some (ls, q)) ∧
    (reg = none → skipHint (p.rest.length + 1) none p = some (h, q)) ∧
    (reg ≠ none → h = none) ∧
    skipToNext (p.rest.length + 1) p = some q ∧
    (q.rest = [] ∨ atNext q.rest = true) ∧
    unknownBody reg name p = some ({ q with issues := q.issues ++ [.unknown name q.line] },
      saidOf reg name p.line ls ++ h.toList.map (fun h => .hint h q.line) ++
        [.base (.unknown name q.line)]) := by
  obtain ⟨q, e1, -, -, -, e5, -, -⟩ := skipToNext_spec (p.rest.length + 1) p (by omega)
  cases reg with
  | none =>
    have hs := skipHint_state (p.rest.length + 1) none p
    rw [e1] at hs
    obtain ⟨⟨h, q'⟩, hs1, hs2⟩ := Option.map_eq_some_iff.1 hs
    obtain rfl : q' = q := hs2
    refine ⟨[], h, q', fun g => absurd rfl g, fun _ => hs1, fun g => absurd rfl g, e1, e5, ?_⟩
    unfold unknownBody
    simp only
    rw [hs1]
    simp only
    rw [skipToNext_at e5]
    rfl
  | some r =>
    have hc := collect_state (p.rest.length + 1) [] p
    rw [e1] at hc
    obtain ⟨⟨ls, q'⟩, hc1, hc2⟩ := Option.map_eq_some_iff.1 hc
    obtain rfl : q' = q := hc2
    refine ⟨ls, none, q', fun _ => hc1, (fun g => by cases g), fun _ => rfl, e1, e5, ?_⟩
    unfold unknownBody
    simp only
    unfold tryProcess
    rw [hc1]
    simp only
    rw [skipHint_at e5]
    simp only
    rw [skipToNext_at e5]
    rfl

theorem knows_iff (name : Str) : knows name = true ↔ Known (trim name) := by
  unfold knows Known StylesName
  simp only [List.contains_iff_mem, List.mem_cons, List.not_mem_nil, or_false]
  constructor
  · rintro (h | h | h | h | h | h | h) <;> simp [h]
  · rintro (h | (h | h | h) | h | h | h) <;> simp [h]

theorem not_knows {name : Str} (h : ¬ knows name = true) :
    trim name ≠ "Script Info".toList ∧
    ¬ (trim name = "V4+ Styles".toList ∨ trim name = "V4 Styles".toList ∨ trim name = "V4++ Styles".toList) ∧
    trim name ≠ "Events".toList ∧ trim name ≠ "Fonts".toList ∧ trim name ≠ "Graphics".toList := by
  rw [knows_iff] at h
  unfold Known StylesName at h
  refine ⟨fun g => h (Or.inl g), fun g => h (Or.inr (Or.inl g)), fun g => h (Or.inr (Or.inr (Or.inl g))),
    fun g => h (Or.inr (Or.inr (Or.inr (Or.inl g)))), fun g => h (Or.inr (Or.inr (Or.inr (Or.inr g))))⟩

theorem parseBody_unknown {name : Str} {p q : St} (h : ¬ knows name = true)
    (hq : skipToNext (p.rest.length + 1) p = some q) (h5 : q.rest = [] ∨ atNext q.rest = true) :
    parseBody name p = some { q with issues := q.issues ++ [.unknown name q.line] } := by
  obtain ⟨h1, h2, h3, h4, h6⟩ := not_knows h
  unfold parseBody
  simp only
  rw [if_neg h1, if_neg h2, if_neg h3, if_neg h4, if_neg h6, hq]
  simp only
  rw [skipToNext_at h5]

theorem parseBody_issues {name : Str} {p q : St} (h : parseBody name p = some q) : ∃ x, q.issues = p.issues ++ x := by
  by_cases hk : knows name = true
  · unfold parseBody at h
    simp only at h
    split at h
    · split at h
      · cases h
      · obtain rfl := Option.some.inj h; exact ⟨_, rfl⟩
    split at h
    · split at h
      · cases h
      · obtain rfl := Option.some.inj h; exact ⟨_, rfl⟩
    split at h
    · split at h
      · cases h
      · obtain rfl := Option.some.inj h; exact ⟨_, rfl⟩
    split at h
    · split at h
      · cases h
      · obtain rfl := Option.some.inj h; exact ⟨[], by simp [St.after]⟩
    split at h
    · split at h
      · cases h
      · obtain rfl := Option.some.inj h; exact ⟨[], by simp [St.after]⟩
    · rename_i a b c d e
      rw [knows_iff] at hk
      exfalso
      rcases hk with g | g | g | g | g
      · exact a g
      · exact b g
      · exact c g
      · exact d g
      · exact e g
  · obtain ⟨z, e1, -, -, e4, e5, -, -⟩ := skipToNext_spec (p.rest.length + 1) p (by omega)
    rw [parseBody_unknown hk e1 e5] at h
    obtain rfl := Option.some.inj h
    exact ⟨[.unknown name z.line], by simp only; rw [e4.2.2.1]⟩

/-- The body of a section, with and without processors. -/
theorem bodyExt_same (reg : Option Registry) (name : Str) (p : St) : ∃ q ms, bodyExt reg name p = some (q, ms) ∧
    parseBody name p = some q ∧ q.issues = p.issues ++ plain ms ∧ (reg ≠ none → hints ms = []) := by
  unfold bodyExt
  by_cases hk : knows name = true
  · rw [if_pos hk]
    obtain ⟨q, e, -⟩ := parseBody_total name p
    obtain ⟨x, hx⟩ := parseBody_issues e
    rw [e]
    refine ⟨q, _, rfl, rfl, ?_, fun _ => hints_base _⟩
    rw [plain_base, hx, List.drop_left]
  · rw [if_neg hk]
    obtain ⟨ls, h, q, -, -, h3, h4, h5, e⟩ := unknownBody_eq reg name p
    obtain ⟨z, e1, -, -, e4, -, -, -⟩ := skipToNext_spec (p.rest.length + 1) p (by omega)
    obtain rfl : z = q := Option.some.inj (e1.symm.trans h4)
    rw [e]
    refine ⟨_, _, rfl, parseBody_unknown hk h4 h5, ?_, ?_⟩
    · rw [plain_append, plain_append, (saidOf_plain _ _ _ _).1]
      have : plain (h.toList.map (fun h => Note.hint h z.line)) = [] := by clear h3 e; cases h <;> rfl
      rw [this]
      simp only [e4.2.2.1, plain]
      rfl
    · intro hr
      rw [h3 hr, hints_append, hints_append, (saidOf_plain _ _ _ _).2]
      rfl

theorem skipToNext_issues {n : Nat} {p q : St} (hn : p.rest.length < n) (h : skipToNext n p = some q) : q.issues = p.issues := by
  obtain ⟨z, e1, -, -, e4, -, -, -⟩ := skipToNext_spec n p hn
  obtain rfl : z = q := Option.some.inj (e1.symm.trans h)
  exact e4.2.2.1

theorem oneExt_same (reg : Option Registry) {p : St} (h : p.rest ≠ []) (ht : trimStart p.rest = p.rest) :
    ∃ q ms, oneExt reg p = some (q, ms) ∧ parseOne p = some q ∧ q.issues = p.issues ++ plain ms ∧
      (reg ≠ none → hints ms = []) := by
  obtain ⟨z, hz, -⟩ := parseOne_total h ht
  unfold oneExt
  by_cases h1 : startsWith ['['] p.rest = true
  · rw [if_pos h1]
    cases hs : splitOnce ']' p.rest with
    | some x =>
      obtain ⟨a, r⟩ := x
      simp only
      obtain ⟨q, ms, e1, e2, e3, e4⟩ := bodyExt_same reg (a.drop 1)
        ({ p with rest := r, off := p.off + byteLen a + 1 } : St).skipLine
      refine ⟨q, ms, e1, ?_, ?_, e4⟩
      · unfold parseOne
        rw [if_pos h1, hs]
        exact e2
      · rw [e3, (same_skipLine _).2.2.1]
    | none =>
      simp only
      rw [hz]
      refine ⟨z, _, rfl, rfl, ?_, fun _ => rfl⟩
      unfold parseOne at hz
      rw [if_pos h1, hs] at hz
      exact skipToNext_issues (by simp) hz
  · rw [if_neg h1, hz]
    refine ⟨z, _, rfl, rfl, ?_, fun _ => rfl⟩
    unfold parseOne at hz
    rw [if_neg h1] at hz
    exact skipToNext_issues (by simp) hz

theorem loopExt_same (reg : Option Registry) : ∀ (n : Nat) (p : St) (ns : List Note), p.rest.length < n →
    p.issues = plain ns → (reg ≠ none → hints ns = []) → ∃ q ms, loopExt reg n p ns = some (q, ms) ∧
      mainLoop n p = some q ∧ q.issues = plain ms ∧ (reg ≠ none → hints ms = [])
  | 0, p, _, h, _, _ => by omega
  | n + 1, p, ns, h, hi, hh => by
    rw [loopExt, mainLoop]
    by_cases h0 : p.rest = []
    · rw [if_pos h0, if_pos h0]
      exact ⟨p, ns, rfl, rfl, hi, hh⟩
    rw [if_neg h0, if_neg h0]
    obtain ⟨q, e1, e2, -, -, e5, e6⟩ := skipTop_spec (p.rest.length + 1) p (by omega)
    rw [e1]
    simp only
    by_cases h1 : q.rest = []
    · rw [if_pos h1, if_pos h1]
      exact ⟨q, ns, rfl, rfl, by rw [e5.2.2.1, hi], hh⟩
    rw [if_neg h1, if_neg h1]
    have ht : trimStart q.rest = q.rest := by
      rcases e6 with g | g
      · exact absurd g h1
      · exact g.1
    obtain ⟨r, ms, f1, f2, f3, f4⟩ := oneExt_same reg h1 ht
    obtain ⟨r', f5, f6⟩ := parseOne_total h1 ht
    obtain rfl : r' = r := Option.some.inj (f5.symm.trans f2)
    rw [f1, f2]
    simp only
    have := e2.length_le
    exact loopExt_same reg n r' (ns ++ ms) (by omega)
      (by rw [f3, plain_append, e5.2.2.1, hi]) (fun hr => by rw [hints_append, hh hr, f4 hr]; rfl)

/-! ## The lines of an unknown section -/

theorem begins_iff {word : String} {c : Char} {cs : Str} (hw : word.toList = c :: cs) (hc : isWs c = false) (l : Str) :
    startsWith word.toList (trimStart l) = true ↔ Begins word l := by
  constructor
  · intro h
    obtain ⟨r, hr⟩ := startsWith_iff.1 h
    refine ⟨l.takeWhile isWs, r, ?_, fun x hx => (SrtDoc.white_iff x).1 (Parser.takeWhile_all _ x hx)⟩
    have := List.takeWhile_append_dropWhile (p := isWs) (l := l)
    unfold trimStart at hr
    rw [hr] at this
    rw [List.append_assoc]; exact this.symm
  · rintro ⟨w, r, rfl, hw'⟩
    rw [List.append_assoc, trimStart_append_ws _ (fun x hx => (SrtDoc.white_iff x).2 (hw' x hx)), hw, List.cons_append,
      trimStart_cons hc]
    exact startsWith_iff.2 ⟨r, rfl⟩

theorem skipLine_unlines {l : Str} {L : List Str} {p : St} (hl : '\n' ∉ l) (hp : p.rest = unlines (l :: L)) :
    p.rest.takeWhile (· ≠ '\n') = l ∧ p.skipLine.rest = unlines L := by
  unfold St.skipLine
  by_cases h : L = []
  · subst h
    have hp' : p.rest = l := hp
    rw [hp', splitOnce_none hl]
    exact ⟨takeWhile_nl hl, rfl⟩
  · rw [unlines_cons h] at hp
    rw [hp, splitOnce_append _ hl]
    exact ⟨takeWhile_nl_append _ hl, rfl⟩

/-- Where the lines of the body end. -/
theorem end_of_body {o : Nat} {rest : List Str} {segs : List Seg} (hr : Segments o rest segs) (hL : ∀ l ∈ rest, '\n' ∉ l)
    {s : Str} (hs : s = unlines rest) : s = [] ∨ atNext s = true := by
  have h := (body_lines (bd := []) hr (by simp) (by simpa using hL) (s := s) (by simpa using hs)).2
  have hready := ready_lines hr hL h
  cases hr with
  | nil => exact Or.inl hs
  | @cons _ hd _ bd' rest' _ hh _ _ =>
    right
    apply ready_open hready
    obtain ⟨w, x, e, hw, -⟩ := hh
    rw [hs]
    apply opens_spec.2
    by_cases hne : bd' ++ rest' = []
    · rw [hne]; exact ⟨w, _, by rw [show unlines [hd] = hd from rfl, e, List.append_assoc]; rfl, hw⟩
    · rw [unlines_cons hne]
      exact ⟨w, _, by rw [e]; simp only [List.append_assoc, List.cons_append]; rfl, hw⟩

/-- Where a header comes next, the lines before it are blank. -/
theorem white_before {o : Nat} {bd rest : List Str} {segs : List Seg} (hr : Segments o rest segs)
    (hb : ∀ l ∈ bd, ¬ Opens l) (hL : ∀ l ∈ bd ++ rest, '\n' ∉ l) {s : Str} (hs : s = unlines (bd ++ rest))
    (h : s = [] ∨ atNext s = true) : ∀ l ∈ bd, ∀ c ∈ l, White c := by
  obtain ⟨hbody, -⟩ := body_lines hr hb hL hs
  have hw : ∀ l ∈ body s, ∀ c ∈ l, isWs c = true := by
    rcases h with h | h
    · rw [h, body_nil]; simp
    · exact (at_section (atNext_opens h)).1
  intro l hl c hc
  apply (SrtDoc.white_iff c).1
  rcases hbody with e | ⟨e, -⟩
  · exact hw l (by rw [e]; exact hl) c hc
  · rw [e] at hl; simp at hl

/-- The lines a processor gets. -/
theorem collect_doc {o : Nat} {rest : List Str} {segs : List Seg} (hr : Segments o rest segs) : ∀ {bd : List Str},
    (∀ l ∈ bd, ¬ Opens l) → (∀ l ∈ bd ++ rest, '\n' ∉ l) → ∀ {n : Nat} {p : St} {ls : List Str},
    p.rest = unlines (bd ++ rest) → p.rest.length < n →
    ∃ given q, Given bd given ∧ collect n ls p = some (ls ++ given, q)
  | bd, hb, hL, 0, p, ls, hp, hn => by omega
  | bd, hb, hL, n + 1, p, ls, hp, hn => by
    rw [collect]
    by_cases hend : p.rest = [] ∨ atNext p.rest = true
    · refine ⟨[], p, ⟨[], bd, rfl, white_before hr hb hL hp hend, rfl⟩, ?_⟩
      rw [List.append_nil]
      by_cases h0 : p.rest = []
      · rw [if_pos h0]
      · rw [if_neg h0, if_pos (hend.resolve_left h0)]
    · have h0 : p.rest ≠ [] := fun h => hend (Or.inl h)
      rw [if_neg h0, if_neg (fun h => hend (Or.inr h))]
      cases bd with
      | nil => exact absurd (end_of_body hr (by simpa using hL) (by simpa using hp)) hend
      | cons l bd =>
        obtain ⟨e1, e2⟩ := skipLine_unlines (hL l (by simp)) hp
        have hlt := St.skipLine_lt h0
        rw [e1]
        obtain ⟨given, q, ⟨b, w, f1, f2, f3⟩, f4⟩ := collect_doc hr (bd := bd) (fun x hx => hb x (by simp [hx]))
          (fun x hx => hL x (by simp at hx ⊢; exact Or.inr hx)) (n := n) (p := p.skipLine)
          (ls := if l = [] then ls else ls ++ [l]) e2 (by omega)
        refine ⟨(l :: b).filter (fun l => !l.isEmpty), q, ⟨l :: b, w, by rw [f1]; rfl, f2, rfl⟩, ?_⟩
        rw [f4, f3]
        by_cases hl : l = []
        · subst hl; rfl
        · rw [if_neg hl, List.filter_cons_of_pos (by cases l with | nil => exact absurd rfl hl | cons _ _ => rfl)]
          simp

theorem hintOf_line {l : Str} {L : List Str} {p : St} (hl : '\n' ∉ l) (hp : p.rest = unlines (l :: L))
    (hf : ¬ Begins "Format:" l) : (∃ h, hintOf p.rest = some h ∧ lineHint l h) ∨
      (hintOf p.rest = none ∧ ∀ h, ¬ lineHint l h) := by
  have e := (skipLine_unlines hl hp).1
  unfold hintOf
  rw [e]
  have b1 := begins_iff (word := "Style:") (c := 'S') (cs := "tyle:".toList) rfl (by decide) l
  have b2 := begins_iff (word := "Dialogue:") (c := 'D') (cs := "ialogue:".toList) rfl (by decide) l
  have b3 := begins_iff (word := "Comment:") (c := 'C') (cs := "omment:".toList) rfl (by decide) l
  have b4 := begins_iff (word := "Title:") (c := 'T') (cs := "itle:".toList) rfl (by decide) l
  have b5 := begins_iff (word := "ScriptType:") (c := 'S') (cs := "criptType:".toList) rfl (by decide) l
  have b6 := begins_iff (word := "Format:") (c := 'F') (cs := "ormat:".toList) rfl (by decide) l
  have c2 : (startsWith "Dialogue:".toList (trimStart l) || startsWith "Comment:".toList (trimStart l)) = true ↔
      (Begins "Dialogue:" l ∨ Begins "Comment:" l) := by rw [Bool.or_eq_true, b2, b3]
  have c3 : (startsWith "Title:".toList (trimStart l) || startsWith "ScriptType:".toList (trimStart l)) = true ↔
      (Begins "Title:" l ∨ Begins "ScriptType:" l) := by rw [Bool.or_eq_true, b4, b5]
  by_cases h1 : Begins "Style:" l
  · rw [if_pos (b1.2 h1)]; exact Or.inl ⟨_, rfl, h1⟩
  rw [if_neg (fun g => h1 (b1.1 g))]
  by_cases h2 : Begins "Dialogue:" l ∨ Begins "Comment:" l
  · rw [if_pos (c2.2 h2)]; exact Or.inl ⟨_, rfl, h2⟩
  rw [if_neg (fun g => h2 (c2.1 g))]
  by_cases h3 : Begins "Title:" l ∨ Begins "ScriptType:" l
  · rw [if_pos (c3.2 h3)]; exact Or.inl ⟨_, rfl, h3⟩
  rw [if_neg (fun g => h3 (c3.1 g)), if_neg (fun g => hf (b6.1 g))]
  refine Or.inr ⟨rfl, ?_⟩
  intro h
  cases h
  · exact h1
  · exact h2
  · exact h3

theorem white_no_hint {l : Str} (hw : ∀ c ∈ l, White c) (h : Hint) : ¬ lineHint l h := by
  have key : ∀ (word : String) (c : Char) (cs : Str), word.toList = c :: cs → isWs c = false → ¬ Begins word l := by
    rintro word c cs e hc ⟨w, r, rfl, -⟩
    have := (SrtDoc.white_iff c).2 (hw c (by rw [e]; simp))
    rw [hc] at this; cases this
  have k1 := key "Style:" 'S' "tyle:".toList rfl (by decide)
  have k2 := key "Dialogue:" 'D' "ialogue:".toList rfl (by decide)
  have k3 := key "Comment:" 'C' "omment:".toList rfl (by decide)
  have k4 := key "Title:" 'T' "itle:".toList rfl (by decide)
  have k5 := key "ScriptType:" 'S' "criptType:".toList rfl (by decide)
  cases h
  · exact k1
  · rintro (g | g)
    · exact k2 g
    · exact k3 g
  · rintro (g | g)
    · exact k4 g
    · exact k5 g

theorem white_hint : ∀ {L : List Str}, (∀ l ∈ L, ∀ c ∈ l, White c) → BodyHint L []
  | [], _ => .nil
  | l :: _, h => .miss (fun g => white_no_hint (h l (by simp)) g) (white_hint (fun x hx => h x (by simp [hx])))

theorem skipHint_some : ∀ (n : Nat) (x : Hint) (p q : St) (h : Option Hint), skipHint n (some x) p = some (h, q) → h = some x
  | 0, _, _, _, _, e => by simp [skipHint] at e
  | n + 1, x, p, q, h, e => by
    rw [skipHint] at e
    by_cases h0 : p.rest = []
    · rw [if_pos h0] at e; simp at e; exact e.1.symm
    rw [if_neg h0] at e
    by_cases h1 : atNext p.rest = true
    · rw [if_pos h1] at e; simp at e; exact e.1.symm
    rw [if_neg h1] at e
    exact skipHint_some n x _ _ _ e

/-- The suggestion for a body. -/
theorem skipHint_doc {o : Nat} {rest : List Str} {segs : List Seg} (hr : Segments o rest segs) : ∀ {bd : List Str},
    (∀ l ∈ bd, ¬ Opens l) → (∀ l ∈ bd ++ rest, '\n' ∉ l) → (∀ l ∈ bd, ¬ Begins "Format:" l) → ∀ {n : Nat} {p q : St}
    {h : Option Hint}, p.rest = unlines (bd ++ rest) → skipHint n none p = some (h, q) → BodyHint bd h.toList
  | bd, hb, hL, hf, 0, p, q, h, hp, e => by simp [skipHint] at e
  | bd, hb, hL, hf, n + 1, p, q, h, hp, e => by
    by_cases hend : p.rest = [] ∨ atNext p.rest = true
    · rw [skipHint_at hend] at e
      simp at e
      rw [← e.1]
      exact white_hint (white_before hr hb hL hp hend)
    · have h0 : p.rest ≠ [] := fun h => hend (Or.inl h)
      rw [skipHint, if_neg h0, if_neg (fun h => hend (Or.inr h))] at e
      cases bd with
      | nil => exact absurd (end_of_body hr (by simpa using hL) (by simpa using hp)) hend
      | cons l bd =>
        have e2 := (skipLine_unlines (hL l (by simp)) hp).2
        rcases hintOf_line (hL l (by simp)) hp (hf l (by simp)) with ⟨x, g1, g2⟩ | ⟨g1, g2⟩
        · rw [g1] at e
          rw [skipHint_some n x _ _ _ e]
          exact .hit g2
        · rw [g1] at e
          exact .miss g2 (skipHint_doc hr (bd := bd) (fun x hx => hb x (by simp [hx]))
            (fun x hx => hL x (by simp at hx ⊢; exact Or.inr hx)) (fun x hx => hf x (by simp [hx])) e2 e)

/-! ## The whole source -/

theorem loopExt_skipTop {reg : Option Registry} {n : Nat} {p q : St} {ns : List Note}
    (h : skipTop (p.rest.length + 1) p = some q) : loopExt reg (n + 1) p ns = loopExt reg (n + 1) q ns := by
  have hq : skipTop (q.rest.length + 1) q = some q := by
    obtain ⟨q', e1, -, -, -, -, e6⟩ := skipTop_spec (p.rest.length + 1) p (by omega)
    rw [h] at e1
    obtain rfl := Option.some.inj e1
    exact skipTop_at e6
  rw [loopExt, loopExt, h, hq]
  by_cases h0 : p.rest = []
  · have : q = p := by
      rw [skipTop, if_pos h0] at h
      exact (Option.some.inj h).symm
    rw [this, if_pos h0]
  · rw [if_neg h0]
    by_cases h1 : q.rest = []
    · simp only [if_pos h1]
    · simp only [if_neg h1]

/-- The loop goes to the next header, as that of `Verif.Parser` does. -/
theorem loopExt_reach {reg : Option Registry} {n : Nat} {p : St} {ns : List Note} (h : p.rest.length < n)
    (hr : Ready p.rest) : ∃ m q ms, loopExt reg n p ns = loopExt reg m q (ns ++ ms) ∧ q.rest.length < m ∧
      q.rest = tail p.rest ∧ fromProcessors ms = [] ∧ hints ms = [] := by
  obtain ⟨n, rfl⟩ : ∃ k, n = k + 1 := ⟨n - 1, by omega⟩
  -- where skipping stops at a header or the end
  have stop : ∀ n p ns, p.rest.length < n + 1 → (p.rest = [] ∨ atNext p.rest = true) →
      ∃ m q, loopExt reg (n + 1) p ns = loopExt reg m q ns ∧ q.rest.length < m ∧ q.rest = tail p.rest := by
    intro n p ns h hb
    rcases hb with hb | hb
    · exact ⟨n + 1, p, rfl, h, by rw [hb, tail_nil]⟩
    · have ho := atNext_opens hb
      have h0 : p.rest ≠ [] := by intro e; rw [e, opens_nil] at ho; cases ho
      have hnc : ¬ (startsWith [';'] (trimStart p.rest) = true ∨ startsWith "!:".toList (trimStart p.rest) = true) := by
        rintro (g | g)
        · rw [startsWith_opens (a := ';') (x := []) (by decide) g] at ho; cases ho
        · rw [startsWith_opens (a := '!') (x := [':']) (by decide) g] at ho; cases ho
      obtain ⟨q, e1, e2, -, -, -, -⟩ := skipTop_spec (p.rest.length + 1) p (by omega)
      refine ⟨n + 1, q, loopExt_skipTop e1, by have := e2.length_le; omega, ?_⟩
      rw [(at_section ho).2]
      rw [skipTop, if_neg h0, if_neg hnc] at e1
      by_cases g2 : trimStart p.rest ≠ p.rest
      · rw [if_pos g2] at e1
        have hl := trimStart_lt g2
        obtain ⟨k, hk⟩ : ∃ k, p.rest.length = k + 1 := ⟨p.rest.length - 1, by omega⟩
        rw [hk, skipTop_at (Or.inr ⟨trimStart_idem _, by simp only; rw [trimStart_idem]; exact hnc⟩)] at e1
        rw [← Option.some.inj e1]
      · rw [if_neg g2] at e1
        rw [← Option.some.inj e1]
        exact (Classical.not_not.1 g2).symm
  obtain ⟨q, e1, e2, e3, -, -, e6⟩ := skipTop_spec (p.rest.length + 1) p (by omega)
  have hm := loopExt_skipTop (reg := reg) (n := n) (ns := ns) e1
  have hqr : Ready q.rest := by unfold Ready; rw [e3]; exact hr
  have hql := e2.length_le
  by_cases hb : q.rest = [] ∨ atNext q.rest = true
  · obtain ⟨m, z, f1, f2, f3⟩ := stop n q ns (by omega) hb
    exact ⟨m, z, [], by rw [hm, f1, List.append_nil], f2, by rw [f3, e3], rfl, rfl⟩
  have h1 : q.rest ≠ [] := fun e => hb (Or.inl e)
  have ha : atNext q.rest = false := by
    cases e : atNext q.rest with
    | false => rfl
    | true => exact absurd (Or.inr e) hb
  have ht : trimStart q.rest = q.rest := by
    rcases e6 with e | e
    · exact absurd e h1
    · exact e.1
  have h2 : ¬ startsWith ['['] q.rest = true := by
    intro g
    have ho : opens q.rest = true := by unfold opens; rw [ht]; exact g
    rw [ready_open hqr ho] at ha; cases ha
  obtain ⟨r, f1, f2, -, -, f5, f6, f7⟩ := skipToNext_spec (q.rest.length + 1) { q with issues := q.issues ++ [.noHeader q.line] }
    (by simp only; omega)
  simp only at f2 f6 f7
  have hlt := f6 h1 ha
  have hone : oneExt reg q = some (r, [.base (.noHeader q.line)]) := by
    unfold oneExt parseOne
    rw [if_neg h2, if_neg h2, f1]
    rfl
  have hmr : loopExt reg (n + 1) p ns = loopExt reg n r (ns ++ [.base (.noHeader q.line)]) := by
    rw [hm, loopExt, if_neg h1, skipTop_at e6]
    simp only
    rw [if_neg h1, hone]
  obtain ⟨n, rfl⟩ : ∃ k, n = k + 1 := ⟨n - 1, by omega⟩
  obtain ⟨m, z, g1, g2, g3⟩ := stop n r (ns ++ [.base (.noHeader q.line)]) (by omega) f5
  exact ⟨m, z, [.base (.noHeader q.line)], by rw [hmr, g1], g2, by rw [g3, f7 hqr, e3], rfl, rfl⟩

/-- The loop on lines that fall into sections. -/
theorem loopExt_doc (reg : Option Registry) {o : Nat} {L : List Str} {segs : List Seg} (h : Segments o L segs) :
    ∀ {n : Nat} {p : St} {ns : List Note}, p.rest.length < n → (∀ l ∈ L, '\n' ∉ l) → tail p.rest = trimStart (unlines L) →
    ∃ q ms, loopExt reg n p ns = some (q, ns ++ ms) ∧ (∀ r, reg = some r → Asked r segs (fromProcessors ms)) ∧
      (reg = none → fromProcessors ms = []) ∧
      (reg = none → (∀ g ∈ segs, ∀ n, Stripped g.raw n → ¬ Known n → ∀ l ∈ g.body, ¬ Begins "Format:" l) →
        Hinted segs (hints ms)) := by
  induction h with
  | nil o =>
    intro n p ns hn hL ht
    obtain ⟨m, q, ms, e1, e2, e3, e4, e5⟩ := loopExt_reach (reg := reg) (ns := ns) hn (Or.inl ht)
    have hq : q.rest = [] := by rw [e3, ht]; rfl
    obtain ⟨m, rfl⟩ : ∃ k, m = k + 1 := ⟨m - 1, by omega⟩
    refine ⟨q, ms, by rw [e1, loopExt, if_pos hq], ?_, fun _ => e4, ?_⟩
    · intro r _; rw [e4]; exact .nil
    · intro _ _; rw [e5]; exact .nil
  | @cons o hd raw bd rest segs hh hb hr ih =>
    intro n p ns hn hL ht
    have hready := ready_lines (.cons hh hb hr) hL ht
    obtain ⟨m, q, ms0, e1, e2, e3, e4, e5⟩ := loopExt_reach (reg := reg) (ns := ns) hn hready
    obtain ⟨w, x, ehd, hw, hn'⟩ := hh
    -- the text at the header
    obtain ⟨y, hy, hyL⟩ : ∃ y, unlines (hd :: (bd ++ rest)) = hd ++ y ∧
        ((bd ++ rest = [] ∧ y = []) ∨ (bd ++ rest ≠ [] ∧ y = '\n' :: unlines (bd ++ rest))) := by
      by_cases hne : bd ++ rest = []
      · exact ⟨[], by rw [hne]; simp [unlines], Or.inl ⟨hne, rfl⟩⟩
      · exact ⟨_, unlines_cons hne, Or.inr ⟨hne, rfl⟩⟩
    have hww : ∀ c ∈ w, isWs c = true := fun c hc => (SrtDoc.white_iff c).2 (hw c hc)
    have hq : q.rest = '[' :: raw ++ ']' :: (x ++ y) := by
      rw [e3, ht, hy, ehd]
      have : w ++ '[' :: raw ++ ']' :: x ++ y = w ++ '[' :: (raw ++ ']' :: (x ++ y)) := by simp
      rw [this, trimStart_append_ws _ hww, trimStart_cons isWs_bracket]
      rfl
    obtain ⟨m, rfl⟩ : ∃ k, m = k + 1 := ⟨m - 1, by omega⟩
    have hqne : q.rest ≠ [] := by rw [hq]; simp
    have htop : skipTop (q.rest.length + 1) q = some q := by
      apply skipTop_at
      right
      have hts : trimStart q.rest = q.rest := by
        rw [hq]; exact trimStart_cons isWs_bracket
      refine ⟨hts, ?_⟩
      rw [hts, hq]
      rintro (h | h)
      · obtain ⟨r, hr⟩ := startsWith_iff.1 h
        simp at hr
      · obtain ⟨r, hr⟩ := startsWith_iff.1 h
        simp at hr
    have hsp : splitOnce ']' q.rest = some ('[' :: raw, x ++ y) := by
      rw [hq]
      apply splitOnce_append
      simp [hn']
    have hxl : '\n' ∉ x := by
      intro h; apply hL hd (by simp); rw [ehd]; simp [h]
    -- after the header line
    have hsk : (({ q with rest := x ++ y, off := q.off + byteLen ('[' :: raw) + 1 } : St).skipLine).rest = unlines (bd ++ rest) := by
      unfold St.skipLine
      simp only
      rcases hyL with ⟨h0, rfl⟩ | ⟨-, rfl⟩
      · rw [List.append_nil, splitOnce_none hxl, h0]; rfl
      · rw [splitOnce_append _ hxl]
    have hLb : ∀ l ∈ bd ++ rest, '\n' ∉ l := fun l hl => hL l (by simp at hl ⊢; exact Or.inr hl)
    have hlen := (St.skipLine_suffix ({ q with rest := x ++ y, off := q.off + byteLen ('[' :: raw) + 1 } : St)).length_le
    generalize hz : (({ q with rest := x ++ y, off := q.off + byteLen ('[' :: raw) + 1 } : St).skipLine) = z at hsk hlen
    obtain ⟨r, f1, f2, f3, -, -⟩ := parseBody_spec (raw := raw) (a := z.off) hr hb hLb hsk (fun _ => rfl)
    obtain ⟨r', ms1, k1, k2, -, -⟩ := bodyExt_same reg raw z
    obtain rfl : r' = r := Option.some.inj (k2.symm.trans f1)
    have hone : oneExt reg q = some (r', ms1) := by
      unfold oneExt
      rw [if_pos (by rw [hq]; exact startsWith_iff.2 ⟨_, rfl⟩), hsp]
      simp only
      rw [hz]
      exact k1
    have hlt : r'.rest.length < m := by
      have h1 := f2.length_le
      have h3 : q.rest.length = raw.length + 2 + (x ++ y).length := by rw [hq]; simp; omega
      simp only at hlen
      omega
    obtain ⟨v, ms2, g1, g2, g3, g4⟩ := ih (ns := ns ++ ms0 ++ ms1) hlt (fun l hl => hL l (by simp [hl])) f3
    have hname := InfoCmd.stripped_trim raw
    refine ⟨v, ms0 ++ ms1 ++ ms2, ?_, ?_, ?_, ?_⟩
    · rw [e1, loopExt, if_neg hqne, htop]
      simp only
      rw [if_neg hqne, hone]
      simp only
      rw [g1]
      simp
    · intro rg hrg
      rw [from_append, from_append, e4, List.nil_append]
      unfold bodyExt at k1
      by_cases hk : knows raw = true
      · rw [if_pos hk, f1] at k1
        simp at k1
        rw [← k1, ← List.map_drop, from_base]
        exact .known (g := ⟨raw, _, bd⟩) hname ((knows_iff raw).1 hk) (g2 rg hrg)
      · rw [if_neg hk] at k1
        obtain ⟨ls, hh', q', u1, -, u3, -, -, u6⟩ := unknownBody_eq reg raw z
        rw [k1] at u6
        simp at u6
        obtain ⟨given, q'', c1, c2⟩ := collect_doc hr hb hLb (n := z.rest.length + 1) (p := z) (ls := []) hsk (by omega)
        have hne : reg ≠ none := by rw [hrg]; simp
        rw [u1 hne] at c2
        simp at c2
        rw [u6.2, u3 hne, from_append]
        have e : fromProcessors (saidOf reg raw z.line ls) = about raw ((rg raw).map (fun f => f raw given)) := by
          rw [hrg, c2.1]
          unfold saidOf processSection
          simp only
          cases rg raw with
          | none => rfl
          | some f =>
            simp only [Option.map_some]
            cases f raw given <;> rfl
        rw [e]
        have := Asked.unknown (reg := rg) (g := ⟨raw, o + size hd + 1, bd⟩) hname
          (fun h => hk ((knows_iff raw).2 h)) c1 (g2 rg hrg)
        have e' : about raw ((rg raw).map (fun f => f raw given)) ++
            fromProcessors ((none : Option Hint).toList.map (fun h => Note.hint h q'.line) ++ [Note.base (.unknown raw q'.line)]) =
            about raw ((rg raw).map (fun f => f raw given)) := List.append_nil _
        rw [e']
        exact this
    · intro hrg
      rw [from_append, from_append, e4, g3 hrg]
      unfold bodyExt at k1
      by_cases hk : knows raw = true
      · rw [if_pos hk, f1] at k1
        simp at k1
        rw [← k1, ← List.map_drop, from_base]; rfl
      · rw [if_neg hk] at k1
        obtain ⟨ls, hh', q', -, -, -, -, -, u6⟩ := unknownBody_eq reg raw z
        rw [k1] at u6
        simp at u6
        rw [u6.2, hrg]
        cases hh' <;> rfl
    · intro hrg hf
      have gh := g4 hrg (fun g hg => hf g (by simp [hg]))
      rw [hints_append, hints_append, e5, List.nil_append]
      unfold bodyExt at k1
      by_cases hk : knows raw = true
      · rw [if_pos hk, f1] at k1
        simp at k1
        rw [← k1, ← List.map_drop, hints_base]
        exact .known (g := ⟨raw, _, bd⟩) hname ((knows_iff raw).1 hk) gh
      · rw [if_neg hk] at k1
        obtain ⟨ls, hh', q', -, u2, -, -, -, u6⟩ := unknownBody_eq reg raw z
        rw [k1] at u6
        simp at u6
        have hkn : ¬ Known (trim raw) := fun h => hk ((knows_iff raw).2 h)
        have hbh := skipHint_doc hr hb hLb (hf ⟨raw, o + size hd + 1, bd⟩ (by simp) _ hname hkn) hsk (u2 hrg)
        have := Hinted.unknown (g := ⟨raw, o + size hd + 1, bd⟩) hname hkn hbh gh
        rw [u6.2, hrg]
        have e' : hints (saidOf none raw z.line ls ++ (hh'.toList.map (fun h => Note.hint h q'.line) ++
            [Note.base (.unknown raw q'.line)])) = hh'.toList := by cases hh' <;> rfl
        rw [e']
        exact this

end Verif.SectionExt
