import Verif.Lemmas.Handlers
import Verif.Lemmas.Float
/-!
# C47, C49, C69 — the extension registry, the built-in tag handlers, parsing with them
-/
namespace Verif.Props
open Verif Verif.Registry Verif.Spec.Reg Verif.Handlers Verif.Spec Verif.Spec.Args

/-! ## C47: the registry -/

/-- **C47.** After any sequence of calls, a tag name is answered by exactly the handler that was registered first
under that name since the name was last taken away (by removal or clearing), and by nobody if there is none. -/
theorem C47_process_tag (ops : List Op) (n args : Str) (x : Option Res) :
    processTag (run ops) n args = x ↔
      (∃ h, h.name = n ∧ CurrentTag ops h ∧ x = some (h.process args)) ∨
      ((∀ h, h.name = n → ¬ CurrentTag ops h) ∧ x = none) := by
  unfold processTag
  cases e : Map.get (run ops).tags n with
  | none =>
    have hno : ∀ h, h.name = n → ¬ CurrentTag ops h := by
      intro h hn hc
      rw [(tag_current ops n h).2 ⟨hn, hc⟩] at e; cases e
    constructor
    · intro h; exact .inr ⟨hno, h.symm⟩
    · rintro (⟨h, hn, hc, _⟩ | ⟨_, h⟩)
      · exact absurd hc (hno h hn)
      · rw [h]; rfl
  | some h =>
    have hc := (tag_current ops n h).1 e
    constructor
    · intro h'; exact .inl ⟨h, hc.1, hc.2, h'.symm⟩
    · rintro (⟨k, hn, hk, rfl⟩ | ⟨hno, _⟩)
      · have := (tag_current ops n k).2 ⟨hn, hk⟩
        rw [e] at this; cases this; rfl
      · exact absurd hc.2 (hno h hc.1)

/-- **C47.** The same for sections. -/
theorem C47_process_section (ops : List Op) (n header : Str) (ls : List Str) (x : Option Res) :
    processSec (run ops) n header ls = x ↔
      (∃ p, p.name = n ∧ CurrentSec ops p ∧ x = some (p.process header ls)) ∨
      ((∀ p, p.name = n → ¬ CurrentSec ops p) ∧ x = none) := by
  unfold processSec
  cases e : Map.get (run ops).secs n with
  | none =>
    have hno : ∀ h, h.name = n → ¬ CurrentSec ops h := by
      intro h hn hc
      rw [(sec_current ops n h).2 ⟨hn, hc⟩] at e; cases e
    constructor
    · intro h; exact .inr ⟨hno, h.symm⟩
    · rintro (⟨h, hn, hc, _⟩ | ⟨_, h⟩)
      · exact absurd hc (hno h hn)
      · rw [h]; rfl
  | some h =>
    have hc := (sec_current ops n h).1 e
    constructor
    · intro h'; exact .inl ⟨h, hc.1, hc.2, h'.symm⟩
    · rintro (⟨k, hn, hk, rfl⟩ | ⟨hno, _⟩)
      · have := (sec_current ops n k).2 ⟨hn, hk⟩
        rw [e] at this; cases this; rfl
      · exact absurd hc.2 (hno h hc.1)

/-- **C47.** Registering under a name in use is refused and changes nothing; otherwise it succeeds. -/
theorem C47_duplicate (ops : List Op) (h : Tag) :
    ((∃ k, k.name = h.name ∧ CurrentTag ops k) → registerTag h (run ops) = (false, run ops)) ∧
    ((∀ k, k.name = h.name → ¬ CurrentTag ops k) → (registerTag h (run ops)).1 = true) := by
  unfold registerTag
  constructor
  · rintro ⟨k, hn, hc⟩
    rw [if_pos (Map.has_iff.2 ⟨k, (tag_current ops _ k).2 ⟨hn, hc⟩⟩)]
  · intro hno
    rw [if_neg]
    intro hh
    obtain ⟨k, hk⟩ := Map.has_iff.1 hh
    have := (tag_current ops _ k).1 hk
    exact hno k this.1 this.2

/-- **C47.** The same for sections. -/
theorem C47_duplicate_section (ops : List Op) (h : Sec) :
    ((∃ k, k.name = h.name ∧ CurrentSec ops k) → registerSec h (run ops) = (false, run ops)) ∧
    ((∀ k, k.name = h.name → ¬ CurrentSec ops k) → (registerSec h (run ops)).1 = true) := by
  unfold registerSec
  constructor
  · rintro ⟨k, hn, hc⟩
    rw [if_pos (Map.has_iff.2 ⟨k, (sec_current ops _ k).2 ⟨hn, hc⟩⟩)]
  · intro hno
    rw [if_neg]
    intro hh
    obtain ⟨k, hk⟩ := Map.has_iff.1 hh
    have := (sec_current ops _ k).1 hk
    exact hno k this.1 this.2

/-- **C47.** Removing hands back the handler that was answering. -/
theorem C47_remove (ops : List Op) (n : Str) :
    (∀ h, (removeTag n (run ops)).1 = some h ↔ h.name = n ∧ CurrentTag ops h) ∧
    (∀ p, (removeSec n (run ops)).1 = some p ↔ p.name = n ∧ CurrentSec ops p) :=
  ⟨tag_current ops n, sec_current ops n⟩

/-- **C47.** The listed names are those that are answered, each once; the tests for names agree with them, and the
count is their number. -/
theorem C47_names (ops : List Op) :
    (∀ n, n ∈ tagNames (run ops) ↔ ∃ h, h.name = n ∧ CurrentTag ops h) ∧
    (∀ n, n ∈ secNames (run ops) ↔ ∃ h, h.name = n ∧ CurrentSec ops h) ∧
    (tagNames (run ops)).Nodup ∧ (secNames (run ops)).Nodup ∧
    (∀ n, hasTag (run ops) n = true ↔ n ∈ tagNames (run ops)) ∧
    (∀ n, hasSec (run ops) n = true ↔ n ∈ secNames (run ops)) ∧
    count (run ops) = (tagNames (run ops)).length + (secNames (run ops)).length := by
  have hw := run_wf ops
  have key1 : ∀ n, n ∈ tagNames (run ops) ↔ ∃ h, Map.get (run ops).tags n = some h := by
    intro n
    unfold tagNames
    constructor
    · intro h
      obtain ⟨p, hp, rfl⟩ := List.mem_map.1 h
      exact ⟨p.2, Map.get_of_mem hw.1 hp⟩
    · rintro ⟨h, hh⟩
      exact List.mem_map.2 ⟨_, Map.mem_of_get hh, rfl⟩
  have key2 : ∀ n, n ∈ secNames (run ops) ↔ ∃ h, Map.get (run ops).secs n = some h := by
    intro n
    unfold secNames
    constructor
    · intro h
      obtain ⟨p, hp, rfl⟩ := List.mem_map.1 h
      exact ⟨p.2, Map.get_of_mem hw.2 hp⟩
    · rintro ⟨h, hh⟩
      exact List.mem_map.2 ⟨_, Map.mem_of_get hh, rfl⟩
  refine ⟨?_, ?_, hw.1, hw.2, ?_, ?_, ?_⟩
  · intro n; rw [key1]; exact exists_congr (fun h => tag_current ops n h)
  · intro n; rw [key2]; exact exists_congr (fun h => sec_current ops n h)
  · intro n; rw [key1]; exact Map.has_iff
  · intro n; rw [key2]; exact Map.has_iff
  · simp [count, tagNames, secNames]

/-- Two handlers with the same name: the first answers, until it is removed. -/
example :
    let a : Tag := ⟨"x".toList, fun _ => .processed⟩
    let b : Tag := ⟨"x".toList, fun _ => .failed⟩
    processTag (run [.addTag a, .addTag b]) "x".toList [] = some .processed ∧
    processTag (run [.addTag a, .addTag b, .dropTag "x".toList, .addTag b]) "x".toList [] = some .failed ∧
    CurrentTag [.addTag a, .addTag b] a ∧ count (run [.addTag a, .addTag b]) = 1 := by
  refine ⟨rfl, rfl, ⟨[], [], [_], rfl, .inl rfl, by simp, ?_⟩, rfl⟩
  intro o ho
  simp at ho
  subst ho
  simp [DropsTag]

/-! ## C49: the built-in handlers -/

private theorem num_false_of_comma {s : Str} (h : ',' ∈ s) : isNumeric (trim s) = false := by
  cases e : isNumeric (trim s) with
  | false => rfl
  | true =>
    exfalso
    obtain ⟨_, a, b, e', ha, hb⟩ := InfoCmd.stripped_trim s
    have hin : ',' ∈ trim s := by
      rw [e'] at h
      rcases List.mem_append.1 h with h | h
      · rcases List.mem_append.1 h with h | h
        · exact absurd h (comma_not_white ha)
        · exact h
      · exact absurd h (comma_not_white hb)
    obtain ⟨sign, ds, frac, e2, hs, hd, hf⟩ := (isNumeric_iff _).1 e
    rw [e2] at hin
    rcases List.mem_append.1 hin with h | h
    · rcases List.mem_append.1 h with h | h
      · rcases hs with rfl | rfl | rfl
        · cases h
        · revert h; decide
        · revert h; decide
      · exact absurd (hd.2 _ h) (by decide)
    · rcases hf with rfl | ⟨fs, rfl, hfs⟩
      · cases h
      · rcases List.mem_cons.1 h with h | h
        · revert h; decide
        · exact absurd (hfs.2 _ h) (by decide)

private theorem checks_const (f : Str → Bool) : ∀ (n : Nat) (parts : List Str),
    checks (List.replicate n f) parts = (decide (parts.length = n) && parts.all f)
  | 0, [] => rfl
  | 0, _ :: _ => by simp [checks]
  | _ + 1, [] => by simp [List.replicate_succ, checks]
  | n + 1, p :: ps => by
    rw [List.replicate_succ, checks, checks_const f n ps]
    simp only [List.length_cons, List.all_cons, Nat.add_right_cancel_iff]
    cases f p <;> cases decide (ps.length = n) <;> simp

private theorem items_const {f : Str → Bool} {P : Str → Prop} (h : ∀ t, f t = true ↔ P t) (n : Nat) (s : Str) :
    ((decide (((splitOn ',' s).map trim).length = n + 1) && ((splitOn ',' s).map trim).all f) = true ↔
      Items (List.replicate (n + 1) P) s) := by
  rw [← checks_const, checks_items _ (List.replicate (n + 1) P) _ (by simp [List.replicate_succ]) (by simp)]
  intro i h1 h2 t
  simp only [List.getElem_replicate]
  exact h t

private theorem u32_iff (s : Str) : (parseU32 s).isSome = true ↔ UpTo (2 ^ 32 - 1) s := by
  rw [Option.isSome_iff_exists]
  constructor
  · rintro ⟨v, h⟩
    have := Time.parseU32_iff.1 h
    exact ⟨v, this, by have := this.1; omega⟩
  · rintro ⟨v, h, _⟩; exact ⟨v, Time.parseU32_iff.2 h⟩

private theorem fadeAlpha_iff (s : Str) : fadeAlpha s = true ↔ UpTo 255 s := by
  unfold fadeAlpha
  cases e : parseU32 s with
  | none =>
    simp only [Bool.false_eq_true, false_iff]
    rintro ⟨v, h, _⟩
    rw [Time.parseU32_iff.2 h] at e; cases e
  | some v =>
    simp only [Bool.not_eq_true', decide_eq_false_iff_not]
    constructor
    · intro h; exact ⟨v, Time.parseU32_iff.1 e, by omega⟩
    · rintro ⟨w, h, hw⟩
      rw [Time.parseU32_iff.2 h] at e; cases e; omega

private theorem digitsVal_numeral {ds : Str} {v : Nat} : (ds ≠ [] ∧ digitsVal 10 0 ds = some v) ↔ Numeral ds v := by
  constructor
  · rintro ⟨h1, h2⟩
    have := digits_of_digitsVal h2
    exact ⟨h1, this.1, this.2⟩
  · rintro ⟨h1, h2, h3⟩
    exact ⟨h1, by rw [digitsVal_of_digits h2, h3]⟩

private theorem unsigned_numeral {s : Str} {bound v : Nat} : parseUnsigned 10 bound s = some v ↔
    v < bound ∧ ∃ ds, Numeral ds v ∧ (s = ds ∨ s = '+' :: ds) := by
  have key : ∀ ds : Str, (match ds with
      | [] => none
      | _ => match digitsVal 10 0 ds with
        | some v => if v < bound then some v else none
        | none => none) = some v ↔ v < bound ∧ Numeral ds v := by
    intro ds
    cases ds with
    | nil => simp [Numeral]
    | cons c t =>
      simp only
      rw [← digitsVal_numeral]
      cases e : digitsVal 10 0 (c :: t) with
      | none => simp
      | some w =>
        simp only
        by_cases hw : w < bound
        · rw [if_pos hw]
          simp only [Option.some.injEq]
          constructor
          · rintro rfl; exact ⟨hw, by simp, rfl⟩
          · exact fun h => h.2.2
        · rw [if_neg hw]
          simp only [Option.some.injEq, reduceCtorEq, false_iff]
          rintro ⟨h1, _, rfl⟩; exact hw h1
  cases s with
  | nil =>
    refine (key []).trans (and_congr_right (fun _ => ?_))
    constructor
    · intro h; exact ⟨[], h, .inl rfl⟩
    · rintro ⟨ds, h, rfl | e⟩
      · exact h
      · cases e
  | cons c t =>
    by_cases hc : c = '+'
    · subst hc
      refine (key t).trans (and_congr_right (fun _ => ?_))
      constructor
      · intro h; exact ⟨t, h, .inr rfl⟩
      · rintro ⟨ds, h, rfl | e⟩
        · exact absurd (h.2.1 '+' (by simp)) (by decide)
        · cases e; exact h
    · have : parseUnsigned 10 bound (c :: t) = some v ↔ v < bound ∧ Numeral (c :: t) v := by
        refine Iff.trans ?_ (key (c :: t))
        have hd : digitsVal 10 0 (c :: t) = none ∨ ∃ w, digitsVal 10 0 (c :: t) = some w := by
          cases digitsVal 10 0 (c :: t) <;> simp
        unfold parseUnsigned
        split
        · next e => cases e; exact absurd rfl hc
        · rfl
      refine this.trans (and_congr_right (fun _ => ?_))
      constructor
      · intro h; exact ⟨_, h, .inl rfl⟩
      · rintro ⟨ds, h, rfl | e⟩
        · exact h
        · cases e; exact absurd rfl hc

private theorem i32_iff (s : Str) : fadeTime s = true ↔ NonNeg s := by
  have fsome : ∀ v, Override.parseI32 s = some v → (fadeTime s = true ↔ 0 ≤ v) := by
    intro v h
    unfold fadeTime; rw [h]; simp
  have fnone : Override.parseI32 s = none → ¬ fadeTime s = true := by
    intro h
    unfold fadeTime; rw [h]; simp
  unfold NonNeg
  by_cases hm : ∃ t, s = '-' :: t
  · obtain ⟨t, rfl⟩ := hm
    have hnum : ∀ ds v, Numeral ds v → ('-' :: t = ds ∨ '-' :: t = '+' :: ds) → False := by
      rintro ds v h (rfl | e)
      · exact absurd (h.2.1 '-' (by simp)) (by decide)
      · cases e
    cases t with
    | nil =>
      refine iff_of_false (fnone rfl) ?_
      rintro ⟨ds, v, h, ⟨_, h'⟩ | ⟨_, h'⟩⟩
      · exact hnum ds v h h'
      · cases h'; exact h.1 rfl
    | cons c t =>
      cases e : digitsVal 10 0 (c :: t) with
      | none =>
        refine iff_of_false (fnone (by simp only [Override.parseI32, e])) ?_
        rintro ⟨ds, v, h, ⟨_, h'⟩ | ⟨_, h'⟩⟩
        · exact hnum ds v h h'
        · cases h'; rw [(digitsVal_numeral.2 h).2] at e; cases e
      | some w =>
        have hw : Numeral (c :: t) w := digitsVal_numeral.1 ⟨by simp, e⟩
        by_cases hb : w ≤ 2 ^ 31
        · rw [fsome (-(w : Int)) (by simp only [Override.parseI32, e]; rw [if_pos hb])]
          constructor
          · intro h; exact ⟨_, w, hw, .inr ⟨by omega, rfl⟩⟩
          · rintro ⟨ds, v, h, ⟨_, h'⟩ | ⟨hv, h'⟩⟩
            · exact (hnum ds v h h').elim
            · cases h'
              have := (digitsVal_numeral.2 h).2
              rw [e] at this; cases this; omega
        · refine iff_of_false (fnone (by simp only [Override.parseI32, e]; rw [if_neg hb])) ?_
          rintro ⟨ds, v, h, ⟨_, h'⟩ | ⟨hv, h'⟩⟩
          · exact hnum ds v h h'
          · cases h'
            have := (digitsVal_numeral.2 h).2
            rw [e] at this; cases this; omega
  · have hp : Override.parseI32 s = (parseUnsigned 10 (2 ^ 31) s).map (fun v => (v : Int)) := by
      unfold Override.parseI32
      split
      · exact absurd ⟨_, rfl⟩ hm
      · cases parseUnsigned 10 (2 ^ 31) s <;> rfl
    cases e : parseUnsigned 10 (2 ^ 31) s with
    | none =>
      refine iff_of_false (fnone (by rw [hp, e]; rfl)) ?_
      rintro ⟨ds, v, h, ⟨hv, h'⟩ | ⟨_, h'⟩⟩
      · rw [unsigned_numeral.2 ⟨hv, ds, h, h'⟩] at e; cases e
      · exact hm ⟨_, h'⟩
    | some v =>
      obtain ⟨h1, ds, h2, h3⟩ := unsigned_numeral.1 e
      rw [fsome (v : Int) (by rw [hp, e]; rfl)]
      constructor
      · intro _; exact ⟨ds, v, h2, .inl ⟨h1, h3⟩⟩
      · intro _; omega

private theorem oneOf_iff (l : List Str) (l' : List String) (h : l'.all (fun w => decide (w.toList ∈ l)) = true)
    (h' : l.all (fun s => l'.any (fun w => decide (s = w.toList))) = true) (args : Str) :
    ∃ b, oneOf l args = .ok b ∧ (b = true ↔ Padded (OneOf l') args) := by
  refine ⟨_, rfl, ?_⟩
  rw [padded_iff, decide_eq_true_eq]
  constructor
  · intro hm
    have := List.all_eq_true.1 h' _ hm
    obtain ⟨w, hw, e⟩ := List.any_eq_true.1 this
    exact ⟨w, hw, by simpa using e⟩
  · rintro ⟨w, hw, e⟩
    rw [e]
    have := List.all_eq_true.1 h w hw
    simpa using this

private theorem hex_padded (n : Nat) (args : Str) : ∃ b, hexArgs n (trim args) = .ok b ∧ (b = true ↔ Padded (Hex n) args) := by
  rw [padded_iff]; exact hexArgs_iff n _

private theorem numeric_padded (args : Str) : ∃ b, numeric args = .ok b ∧ (b = true ↔ Padded Number args) :=
  ⟨_, rfl, by rw [padded_iff]; exact isNumeric_iff _⟩

private theorem fontSize_padded (args : Str) : ∃ b, fontSize args = .ok b ∧ (b = true ↔ Padded Spec.Float.AboveZero args) := by
  rw [padded_iff, ← Float.positive_iff]
  unfold fontSize
  split
  · rename_i h; rw [h]; exact ⟨_, rfl, by decide⟩
  · exact ⟨_, rfl, Iff.rfl⟩

private theorem width_padded (args : Str) : ∃ b, width args = .ok b ∧ (b = true ↔ Padded Spec.Float.NotBelowZero args) := by
  rw [padded_iff, ← Float.nonNegative_iff]
  unfold width
  split
  · rename_i h; rw [h]; exact ⟨_, rfl, by decide⟩
  · exact ⟨_, rfl, Iff.rfl⟩

private theorem unsigned_padded (args : Str) :
    ∃ b, unsigned args = .ok b ∧ (b = true ↔ Padded (UpTo (2 ^ 32 - 1)) args) :=
  ⟨_, rfl, by rw [padded_iff]; exact u32_iff _⟩

private theorem bold_padded (args : Str) :
    ∃ b, bold args = .ok b ∧ (b = true ↔ Padded (fun s => OneOf ["", "0", "1"] s ∨ Weight s) args) := by
  rw [padded_iff]
  unfold bold
  simp only
  generalize trim args = t
  by_cases h : t = [] ∨ t = "0".toList ∨ t = "1".toList
  · rw [if_pos h]
    refine ⟨true, rfl, ?_⟩
    simp only [true_iff]
    left
    rcases h with rfl | rfl | rfl
    · exact ⟨"", by simp, rfl⟩
    · exact ⟨"0", by simp, rfl⟩
    · exact ⟨"1", by simp, rfl⟩
  · rw [if_neg h]
    have hno : ¬ OneOf ["", "0", "1"] t := by
      rintro ⟨w, hw, rfl⟩
      simp only [List.mem_cons, List.not_mem_nil, or_false] at hw
      rcases hw with rfl | rfl | rfl
      · exact h (.inl rfl)
      · exact h (.inr (.inl rfl))
      · exact h (.inr (.inr rfl))
    cases e : parseU32 t with
    | none =>
      refine ⟨false, rfl, ?_⟩
      simp only [Bool.false_eq_true, false_iff]
      rintro (h' | ⟨v, hv, _⟩)
      · exact hno h'
      · rw [Time.parseU32_iff.2 hv] at e; cases e
    | some v =>
      refine ⟨_, rfl, ?_⟩
      simp only [Bool.and_eq_true, decide_eq_true_eq]
      constructor
      · rintro ⟨⟨h1, h2⟩, h3⟩
        exact .inr ⟨v, Time.parseU32_iff.1 e, v / 100, by omega, by omega, by omega⟩
      · rintro (h' | ⟨w, hw, k, k1, k2, k3⟩)
        · exact absurd h' hno
        · rw [Time.parseU32_iff.2 hw] at e; cases e; omega

private theorem fontName_padded (args : Str) : ∃ b, fontName args = .ok b ∧ (b = true ↔ Padded (· ≠ []) args) :=
  ⟨_, rfl, by rw [padded_iff]; simp⟩

private theorem pos_items (args : Str) : ∃ b, pos args = .ok b ∧ (b = true ↔ Items [Number, Number] args) := by
  rw [show ([Number, Number] : List (Str → Prop)) = List.replicate 2 Number from rfl, ← items_const isNumeric_iff 1,
    ← splitOn_trim]
  unfold pos
  simp only
  generalize trim args = a
  cases e : splitOnce ',' a with
  | none =>
    refine ⟨false, rfl, ?_⟩
    rw [splitOn_of_not_mem (splitOnce_eq_none e)]
    simp
  | some p =>
    obtain ⟨x, y⟩ := p
    obtain ⟨rfl, hx⟩ := splitOnce_some e
    refine ⟨_, rfl, ?_⟩
    rw [splitOn_append_sep _ hx]
    by_cases hy : ',' ∈ y
    · rw [num_false_of_comma hy]
      simp only [Bool.and_false, Bool.false_eq_true, List.map_cons, List.length_cons, List.length_map, Bool.and_eq_true,
        decide_eq_true_eq, false_iff]
      rintro ⟨hl, _⟩
      have := joinSep_splitOn ',' y
      have hone : ∃ z, splitOn ',' y = [z] := by
        cases e2 : splitOn ',' y with
        | nil => exact absurd e2 (splitOn_ne_nil _ _)
        | cons z l =>
          cases l with
          | nil => exact ⟨z, rfl⟩
          | cons => rw [e2] at hl; simp at hl
      obtain ⟨z, hz⟩ := hone
      rw [hz] at this
      have hz' := not_mem_of_mem_splitOn (sep := ',') (s := y) (p := z) (by rw [hz]; simp)
      simp only [joinSep] at this
      exact hz' (by rw [this]; exact hy)
    · rw [splitOn_of_not_mem hy]
      simp

private theorem move_items (args : Str) : ∃ b, move args = .ok b ∧
    (b = true ↔ Items [Number, Number, Number, Number] args ∨
      Items [Number, Number, Number, Number, Number, Number] args) := by
  rw [show ([Number, Number, Number, Number, Number, Number] : List (Str → Prop)) = List.replicate 6 Number from rfl,
    show ([Number, Number, Number, Number] : List (Str → Prop)) = List.replicate 4 Number from rfl,
    ← items_const isNumeric_iff 3, ← items_const isNumeric_iff 5, ← splitOn_trim]
  unfold move
  simp only
  generalize trim args = a
  by_cases ha : a = []
  · subst ha
    exact ⟨false, rfl, by decide⟩
  · rw [if_neg ha]
    generalize (splitOn ',' a).map trim = parts
    by_cases hp : (decide (parts.length ≠ 4) && decide (parts.length ≠ 6)) = true
    · rw [if_pos hp]
      refine ⟨false, rfl, ?_⟩
      simp at hp
      simp [hp.1, hp.2]
    · rw [if_neg hp]
      refine ⟨_, rfl, ?_⟩
      by_cases h4 : parts.length = 4
      · simp [h4]
      · have h6 : parts.length = 6 := by simp [h4] at hp; exact hp
        simp [h6]

private theorem org_parens (args : Str) :
    ∃ b, org args = .ok b ∧ (b = true ↔ Padded (Parens (Items [Number, Number])) args) := by
  refine inParens_iff args _ _ (fun t => ?_)
  rw [show ([Number, Number] : List (Str → Prop)) = List.replicate 2 Number from rfl, ← items_const isNumeric_iff 1]
  generalize (splitOn ',' t).map trim = parts
  by_cases h : parts.length = 2 <;> simp [h]

private theorem fad_parens (args : Str) :
    ∃ b, fad args = .ok b ∧ (b = true ↔ Padded (Parens (Items [UpTo (2 ^ 32 - 1), UpTo (2 ^ 32 - 1)])) args) := by
  refine inParens_iff args _ _ (fun t => ?_)
  rw [show ([UpTo (2 ^ 32 - 1), UpTo (2 ^ 32 - 1)] : List (Str → Prop)) = List.replicate 2 (UpTo (2 ^ 32 - 1)) from rfl,
    ← items_const u32_iff 1]
  generalize (splitOn ',' t).map trim = parts
  by_cases h : parts.length = 2 <;> simp [h]

private theorem fade_parens (args : Str) : ∃ b, fade args = .ok b ∧
    (b = true ↔ Padded (Parens (Items [UpTo 255, UpTo 255, UpTo 255, NonNeg, NonNeg, NonNeg, NonNeg])) args) := by
  refine inParens_iff args _ _ (fun t => ?_)
  rw [← checks_items [fadeAlpha, fadeAlpha, fadeAlpha, fadeTime, fadeTime, fadeTime, fadeTime] _ t (by simp) rfl ?_]
  · generalize (splitOn ',' t).map trim = parts
    by_cases h : parts.length = 7
    · match parts, h with
      | [a, b, c, d, e, f, g], _ => simp [checks, Bool.and_assoc]
    · simp only [h, ne_eq, not_false_eq_true, if_true, Bool.false_eq_true, false_iff]
      intro hc
      apply h
      match parts, hc with
      | [a, b, c, d, e, f, g], _ => rfl
      | [], hc => simp [checks] at hc
      | [_], hc => simp [checks] at hc
      | [_, _], hc => simp [checks] at hc
      | [_, _, _], hc => simp [checks] at hc
      | [_, _, _, _], hc => simp [checks] at hc
      | [_, _, _, _, _], hc => simp [checks] at hc
      | [_, _, _, _, _, _], hc => simp [checks] at hc
      | _ :: _ :: _ :: _ :: _ :: _ :: _ :: _ :: _, hc => simp [checks] at hc
  · intro i h1 h2 t
    match i, h1 with
    | 0, _ => exact fadeAlpha_iff t
    | 1, _ => exact fadeAlpha_iff t
    | 2, _ => exact fadeAlpha_iff t
    | 3, _ => exact i32_iff t
    | 4, _ => exact i32_iff t
    | 5, _ => exact i32_iff t
    | 6, _ => exact i32_iff t

private theorem transform_parens (args : Str) :
    ∃ b, transform args = .ok b ∧ (b = true ↔ Padded (Parens (Padded (· ≠ []))) args) := by
  refine inParens_iff args _ _ (fun t => ?_)
  rw [padded_iff]
  cases t with
  | nil => simp [trim, trimStart, trimEnd]
  | cons => simp

private theorem count_length (s : Str) : (splitOn ',' s).length = s.count ',' + 1 := by
  induction s with
  | nil => rfl
  | cons c s ih =>
    by_cases h : c = ','
    · simp [splitOn, h, ih]
    · rw [List.count_cons_of_ne h, ← ih]
      simp only [splitOn, h, if_false]
      cases e : splitOn ',' s with
      | nil => exact absurd e (splitOn_ne_nil _ _)
      | cons => simp

private theorem clip_parens (args : Str) :
    ∃ b, clip args = .ok b ∧ (b = true ↔ Padded (Parens (fun t => Items [Number, Number, Number, Number] t ∨
      (t.count ',' ≠ 3 ∧ ∃ c ∈ t, c ∈ "mnlbspc".toList))) args) := by
  refine inParens_iff args _ _ (fun t => ?_)
  have hlen : ((splitOn ',' (trim t)).map trim).length = t.count ',' + 1 := by
    rw [splitOn_trim, List.length_map, count_length]
  rw [show ([Number, Number, Number, Number] : List (Str → Prop)) = List.replicate 4 Number from rfl,
    ← items_const isNumeric_iff 3, ← splitOn_trim]
  have hany : (trim t).any (fun c => decide (c ∈ ['m', 'n', 'l', 'b', 's', 'p', 'c'])) = true ↔
      ∃ c ∈ t, c ∈ "mnlbspc".toList := by
    rw [List.any_eq_true]
    obtain ⟨_, a, b, e, ha, hb⟩ := InfoCmd.stripped_trim t
    have hw : ∀ w : Str, (∀ c ∈ w, Spec.EventCmd.White c) → ∀ c ∈ w, c ∉ "mnlbspc".toList := by
      intro w hw c hc hm
      have := hw c hc
      have hall : ∀ c ∈ "mnlbspc".toList, isWs c = false := by decide
      have h1 := hall c hm
      rw [(SrtDoc.white_iff c).2 this] at h1; cases h1
    constructor
    · rintro ⟨c, hc, hm⟩
      exact ⟨c, by rw [e]; simp [hc], by simpa using hm⟩
    · rintro ⟨c, hc, hm⟩
      refine ⟨c, ?_, by simpa using hm⟩
      rw [e] at hc
      rcases List.mem_append.1 hc with h | h
      · rcases List.mem_append.1 h with h | h
        · exact absurd hm (hw a ha c h)
        · exact h
      · exact absurd hm (hw b hb c h)
  rw [← hany]
  simp only
  by_cases hc : trim t = []
  · rw [if_pos hc, hc]; simp [splitOn]
  · rw [if_neg hc]
    by_cases h4 : ((splitOn ',' (trim t)).map trim).length = 4
    · rw [if_pos h4]
      have : t.count ',' = 3 := by omega
      simp [h4, this]
    · rw [if_neg h4]
      have : t.count ',' ≠ 3 := by omega
      simp only [h4, decide_false, Bool.false_and, Bool.false_eq_true, false_or, ne_eq, this, not_false_eq_true, true_and]

/-- What each validator of the table does. -/
private theorem table_documented : ∀ q ∈ table.zip documented,
    q.1.1 = q.2.1.toList ∧ ∀ args, ∃ b, q.1.2 args = .ok b ∧ (b = true ↔ q.2.2 args) := by
  have one := @oneOf_iff
  simp only [table, documented, List.zip_cons_cons, List.zip_nil_left, List.forall_mem_cons, List.not_mem_nil,
    false_implies, implies_true, and_true, true_and]
  refine ⟨bold_padded, one _ _ (by decide) (by decide), one _ _ (by decide) (by decide), one _ _ (by decide) (by decide),
    one _ _ (by decide) (by decide), one _ _ (by decide) (by decide), one _ _ (by decide) (by decide),
    one _ _ (by decide) (by decide), one _ _ (by decide) (by decide), one _ _ (by decide) (by decide),
    one _ _ (by decide) (by decide), unsigned_padded, unsigned_padded, unsigned_padded, unsigned_padded,
    unsigned_padded, fontName_padded, fun _ => ⟨true, rfl, by simp⟩, numeric_padded, numeric_padded, numeric_padded,
    numeric_padded, numeric_padded, numeric_padded, numeric_padded, numeric_padded, numeric_padded, hex_padded 6,
    hex_padded 6, hex_padded 6, hex_padded 6, hex_padded 6, hex_padded 2, hex_padded 2, hex_padded 2, hex_padded 2,
    hex_padded 2, pos_items, move_items, org_parens, fad_parens, fade_parens, transform_parens, clip_parens, fontSize_padded, width_padded,
    width_padded⟩

private theorem names_nodup : (table.map (·.1)).Nodup := by decide

private theorem standard_get {p : Str × (Str → Outcome Bool)} (hp : p ∈ table) (args : Str) :
    processTag standard p.1 args = some (if p.2 args = .ok true then .processed else .failed) := by
  obtain ⟨a, b, e⟩ := List.append_of_mem hp
  refine (C47_process_tag _ _ _ _).2 (.inl ⟨handler p.1 p.2, rfl, ?_, rfl⟩)
  have hn := names_nodup
  rw [e, List.map_append, List.map_cons, List.nodup_append] at hn
  refine ⟨[], (a.map (fun p => handler p.1 p.2)).map .addTag, (b.map (fun p => handler p.1 p.2)).map .addTag, ?_,
    .inl rfl, ?_, ?_⟩
  · unfold builtin; rw [e]; simp
  · rintro o ho ⟨h, rfl, hh⟩
    simp only [List.map_map, List.mem_map, Function.comp_apply, Op.addTag.injEq] at ho
    obtain ⟨x, hx, rfl⟩ := ho
    exact hn.2.2 x.1 (List.mem_map.2 ⟨x, hx, rfl⟩) p.1 (by simp) hh
  · intro o ho hd
    simp only [List.map_map, List.mem_map, Function.comp_apply] at ho
    obtain ⟨x, hx, rfl⟩ := ho
    rcases hd with h | h <;> cases h

/-! ## C49: the built-in handlers -/

/-- **C49.** Every validator answers, whatever the arguments: none panics on a slice of them. -/
theorem C49_total : ∀ p ∈ table, ∀ args, ∃ b, p.2 args = .ok b := by
  intro p hp args
  have h := table_documented
  obtain ⟨i, hi, rfl⟩ := List.getElem_of_mem hp
  have hl : table.length = documented.length := by rfl
  obtain ⟨b, h1, _⟩ := (h (table[i], documented[i]'(hl ▸ hi)) (List.mem_iff_getElem.2
    ⟨i, by rw [List.length_zip]; omega, by rw [List.getElem_zip]⟩)).2 args
  exact ⟨b, h1⟩

example : table.length = 47 ∧ ("clip".toList, clip) ∈ table ∧
    (hexArgs 6 (trim "&H&é".toList) = .ok false) := by
  refine ⟨rfl, by simp [table], by decide⟩

/-- **C49.** In a registry with the built-in handlers, every documented tag is answered, and with success exactly if its
arguments are as documented. -/
theorem C49_accepts : ∀ d ∈ documented, ∀ args,
    (d.2 args → processTag standard d.1.toList args = some .processed) ∧
    (¬ d.2 args → processTag standard d.1.toList args = some .failed) := by
  have key : ∀ q ∈ table.zip documented, ∀ args,
      (q.2.2 args → processTag standard q.2.1.toList args = some .processed) ∧
      (¬ q.2.2 args → processTag standard q.2.1.toList args = some .failed) := by
    intro q hq args
    obtain ⟨hn, h⟩ := table_documented q hq
    obtain ⟨b, h1, h2⟩ := h args
    rw [← hn, standard_get (List.of_mem_zip hq).1, h1]
    cases b with
    | true => exact ⟨fun _ => rfl, fun hno => absurd (h2.1 rfl) hno⟩
    | false => exact ⟨fun hy => absurd (h2.2 hy) (by simp), fun _ => rfl⟩
  intro d hd args
  obtain ⟨i, hi, rfl⟩ := List.getElem_of_mem hd
  have hl : table.length = documented.length := by rfl
  have hi' : i < table.length := hl ▸ hi
  exact key (table[i], documented[i]) (List.mem_iff_getElem.2
    ⟨i, by rw [List.length_zip]; omega, by rw [List.getElem_zip]; rfl⟩) args

example : processTag standard "fad".toList "( 200, 300 )".toList = some .processed ∧
    processTag standard "fad".toList "(200,-1)".toList = some .failed ∧
    processTag standard "1c".toList "&H00FF00&".toList = some .processed ∧
    processTag standard "move".toList "1,2,3,4,5".toList = some .failed ∧
    processTag standard "b".toList "700".toList = some .processed ∧
    processTag standard "b".toList "950".toList = some .failed ∧
    processTag standard "fs".toList " 1.5e1".toList = some .processed ∧
    processTag standard "fs".toList "1e-46".toList = some .failed ∧
    processTag standard "bord".toList "-0".toList = some .processed ∧
    processTag standard "shad".toList "nan".toList = some .failed ∧
    processTag standard "shad".toList "Infinity".toList = some .processed := by
  refine ⟨(standard_get (p := ("fad".toList, fad)) (by simp [table]) _).trans (by decide),
    (standard_get (p := ("fad".toList, fad)) (by simp [table]) _).trans (by decide),
    (standard_get (p := ("1c".toList, color)) (by simp [table]) _).trans (by decide),
    (standard_get (p := ("move".toList, move)) (by simp [table]) _).trans (by decide),
    (standard_get (p := ("b".toList, bold)) (by simp [table]) _).trans (by decide),
    (standard_get (p := ("b".toList, bold)) (by simp [table]) _).trans (by decide),
    (standard_get (p := ("fs".toList, fontSize)) (by simp [table]) _).trans (by decide +kernel),
    (standard_get (p := ("fs".toList, fontSize)) (by simp [table]) _).trans (by decide +kernel),
    (standard_get (p := ("bord".toList, width)) (by simp [table]) _).trans (by decide +kernel),
    (standard_get (p := ("shad".toList, width)) (by simp [table]) _).trans (by decide +kernel),
    (standard_get (p := ("shad".toList, width)) (by simp [table]) _).trans (by decide +kernel)⟩

private theorem no_paren (Ps : List (Str → Prop)) (args : Str) : ¬ Items (Number :: Ps) ('(' :: args) := by
  rintro ⟨parts, e, h⟩
  cases parts with
  | nil => exact h.elim
  | cons p ps =>
    obtain ⟨_, ⟨w, ⟨_, a, b, hp, ha, hb⟩, sign, ds, frac, hw, hs, hd, _⟩, _⟩ := h
    have hhead : p.head? = some '(' := by
      have : p ≠ [] := by
        intro hc
        rw [hp, hw] at hc
        simp at hc
        exact hd.1 hc.2.2.1
      cases p with
      | nil => exact absurd rfl this
      | cons c p =>
        cases ps <;> simp [EventCmd.csv] at e <;> exact congrArg some e.1.symm
    rw [hp] at hhead
    cases a with
    | cons c a =>
      simp at hhead
      have := ha c (by simp)
      rw [hhead] at this
      revert this; unfold EventCmd.White; decide
    | nil =>
      rw [hw] at hhead
      rcases hs with rfl | rfl | rfl
      · cases ds with
        | nil => exact hd.1 rfl
        | cons c ds =>
          simp at hhead
          have := hd.2 c (by simp)
          rw [hhead] at this
          revert this; decide
      · simp at hhead
      · simp at hhead

/-- **C49, violated.** Inside an override block, a correct `\pos(10,20)` is reported as malformed: the parser hands
over the arguments with their parentheses, which the handler does not expect. -/
theorem C49_pos_violated :
    parseBlock standard "\\pos(10,20)".toList 0 =
      .ok ⟨[⟨"pos".toList, "(10,20)".toList, 0⟩], [⟨"\\pos(10,20)".toList, 0, true⟩]⟩ ∧
    (∀ args, processTag standard "pos".toList ('(' :: args) = some .failed) ∧
    (∀ args, processTag standard "move".toList ('(' :: args) = some .failed) := by
  refine ⟨?_, ?_, ?_⟩
  · have hp : processTag standard "pos".toList "(10,20)".toList = some .failed :=
      (standard_get (p := ("pos".toList, pos)) (by simp [table]) _).trans (by decide)
    have hb : ∀ proc : Str → Str → Option Res, proc "pos".toList "(10,20)".toList = some .failed →
        blockLoop proc 11 0 "\\pos(10,20)".toList =
          .ok ⟨[⟨"pos".toList, "(10,20)".toList, 0⟩], [⟨"\\pos(10,20)".toList, 0, true⟩]⟩ := by
      intro proc h
      show push (pushed proc ⟨"pos".toList, "(10,20)".toList, 0⟩).1 (pushed proc ⟨"pos".toList, "(10,20)".toList, 0⟩).2
        (.ok ⟨[], []⟩) = _
      unfold pushed
      simp only [h]
      rfl
    exact hb _ hp
  · intro args
    refine (C49_accepts ("pos", Items [Number, Number]) (by simp [documented]) _).2 ?_
    exact no_paren _ args
  · intro args
    refine (C49_accepts ("move", fun s => Items [Number, Number, Number, Number] s ∨
      Items [Number, Number, Number, Number, Number, Number] s) (by simp [documented]) _).2 ?_
    rintro (h | h)
    · exact no_paren _ args h
    · exact no_paren _ args h

/-! ## C69: parsing with a registry -/

/-- **C69.** With any handlers registered, an override block yields the same tags as without, panics where it would
without, keeps the diagnostics, and adds one `MalformedTag` diagnostic, in order, for each tag its handler fails
on. -/
theorem C69_same_tags (r : Reg) (content : Str) (start : Nat) :
    match Override.parseBlock content start with
    | .ok o => ∃ p, parseBlock r content start = .ok p ∧ p.tags = o.tags ∧
        (p.diags.filter (fun d => !d.malformed)).map (fun d => (d.span, d.offset)) =
          o.diags.map (fun d => (d.span, d.offset)) ∧
        (p.diags.filter (·.malformed)).map (fun d => (d.span, d.offset)) =
          (o.tags.filter (fun t => processTag r t.name t.args = some .failed)).map
            (fun t => ('\\' :: t.name ++ t.args, t.pos))
    | x => x = .panic ∧ parseBlock r content start = .panic := by
  unfold parseBlock Override.parseBlock
  generalize content.length = k
  induction k generalizing start content with
  | zero => cases content <;> exact ⟨_, rfl, rfl, rfl, rfl⟩
  | succ k ih =>
    cases content with
    | nil => exact ⟨_, rfl, rfl, rfl, rfl⟩
    | cons c s =>
      by_cases hc : c = '\\'
      · subst hc
        simp only [blockLoop, Override.blockLoop, if_true]
        rcases Override.scanName_spec s with ⟨h1, h2, _⟩ | ⟨h1, _⟩
        · simp only [h1, ne_eq, not_true_eq_false, if_false]
          cases Override.emptySpan s with
          | none => exact ⟨rfl, rfl⟩
          | some sp =>
            simp only
            cases (Override.scanName [] s).2 with
            | nil => exact ⟨_, rfl, rfl, rfl, rfl⟩
            | cons d r' =>
              have := ih r' (start + 1 + d.utf8Size)
              revert this
              simp only
              cases Override.blockLoop k (start + 1 + d.utf8Size) r' with
              | ok o =>
                rintro ⟨p, h3, h4, h5, h6⟩
                exact ⟨⟨p.tags, ⟨sp, start, false⟩ :: p.diags⟩, by rw [h3]; rfl, h4, by simp [h5], by simp [h6]⟩
              | err => rintro ⟨h, _⟩; cases h
              | panic =>
                rintro ⟨_, h3⟩
                rw [h3]
                exact ⟨rfl, rfl⟩
        · have hb := Override.Name.not_blank h1
          have hne : (Override.scanName [] s).1 ≠ [] := by
            intro hc; rw [hc] at hb; exact hb rfl
          simp only [hne, ne_eq, not_false_eq_true, if_true, hb, if_false]
          generalize (Override.scanName [] s).1 = name at *
          generalize (Override.scanArgs name (Override.scanName [] s).2).1 = args
          have := ih (Override.scanArgs name (Override.scanName [] s).2).2 (start + 1 + byteLen name + byteLen args)
          revert this
          generalize (Override.scanArgs name (Override.scanName [] s).2).2 = r2
          cases Override.blockLoop k (start + 1 + byteLen name + byteLen args) r2 with
          | ok o =>
            rintro ⟨p, h3, h4, h5, h6⟩
            simp only [h3, Override.addTag]
            unfold pushed
            simp only [hb, if_false]
            cases e : processTag r name args with
            | none => exact ⟨_, rfl, by simp [h4], by simp [h5], by simp [h6, e]⟩
            | some x =>
              cases x with
              | processed => exact ⟨_, rfl, by simp [h4], by simp [h5], by simp [h6, e]⟩
              | ignored => exact ⟨_, rfl, by simp [h4], by simp [h5], by simp [h6, e]⟩
              | failed => exact ⟨_, rfl, by simp [h4], by simp [h5], by simp [h6, e]⟩
          | err => rintro ⟨h, _⟩; cases h
          | panic =>
            rintro ⟨_, h3⟩
            simp only [h3]
            exact ⟨rfl, rfl⟩
      · simp only [blockLoop, Override.blockLoop, hc, if_false]
        exact ih s (start + c.utf8Size)

example : parseBlock (run [.addTag ⟨"b".toList, fun a => if a = "1".toList then .processed else .failed⟩])
      "\\b1\\b2\\i1\\ ".toList 5 =
    .ok ⟨[⟨"b".toList, "1".toList, 5⟩, ⟨"b".toList, "2".toList, 8⟩, ⟨"i".toList, "1".toList, 11⟩],
      [⟨"\\b2".toList, 8, true⟩, ⟨"\\ ".toList, 14, false⟩]⟩ := by
  set_option maxRecDepth 20000 in decide

end Verif.Props
