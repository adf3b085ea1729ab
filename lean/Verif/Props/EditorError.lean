import Verif.Model.EditorError
import Verif.Props.Doc
/-!
# C166 — what the errors of the editor say
-/
namespace Verif.Props.EditorError
open Verif Verif.ErrorInfo Verif.EditorError Verif.Pos

/-- The words a message begins with, one for each kind of error but those of the library. -/
def heads : List Str :=
  ["Document not found: ".toList, "Invalid position: line ".toList, "Position out of bounds: ".toList, "Invalid range: start ".toList,
   "Command execution failed: ".toList, "History operation failed: ".toList, "Nothing to undo".toList, "Nothing to redo".toList,
   "Session limit exceeded: ".toList, "Search index error: ".toList, "Extension error: ".toList, "Feature '".toList,
   "Arena allocation failed: ".toList, "Rope operation failed: ".toList, "Event channel error: ".toList, "Validation error: ".toList,
   "IO error: ".toList, "Invalid format: ".toList, "Unsupported format: ".toList, "Thread safety error: ".toList,
   "Builder validation error: ".toList, "Serialization error: ".toList, "Format line error: ".toList, "Section not found: ".toList]

/-- The number of the kind. -/
def num : EdErr → Nat
  | .core _ => 24 | .documentNotFound _ => 0 | .invalidPosition .. => 1 | .outOfBounds .. => 2 | .invalidRange .. => 3 | .commandFailed _ => 4
  | .history _ => 5 | .nothingToUndo => 6 | .nothingToRedo => 7 | .sessionLimit .. => 8 | .searchIndex _ => 9 | .extension .. => 10
  | .feature .. => 11 | .arena _ => 12 | .rope _ => 13 | .eventChannel _ => 14 | .validation _ => 15 | .io _ => 16 | .invalidFormat _ => 17
  | .unsupportedFormat _ => 18 | .threadSafety _ => 19 | .builder _ => 20 | .serialization _ => 21 | .formatLine _ => 22 | .noSection _ => 23

/-- What follows these words. -/
def body : EdErr → Str
  | .core e => e.text
  | .invalidPosition l c => showNat l ++ (", column ".toList ++ showNat c)
  | .outOfBounds p n => showNat p ++ (" (document length: ".toList ++ (showNat n ++ ")".toList))
  | .invalidRange s e n => showNat s ++ (", end ".toList ++ (showNat e ++ (" (document length: ".toList ++ (showNat n ++ ")".toList))))
  | .nothingToUndo => [] | .nothingToRedo => []
  | .sessionLimit c l => showNat c ++ ("/".toList ++ (showNat l ++ " sessions".toList))
  | .extension x m => x ++ (": ".toList ++ m)
  | .feature f r => f ++ ("' requires '".toList ++ (r ++ "' feature flag".toList))
  | .documentNotFound m | .commandFailed m | .history m | .searchIndex m | .arena m | .rope m | .eventChannel m | .validation m | .io m
  | .invalidFormat m | .unsupportedFormat m | .threadSafety m | .builder m | .serialization m | .formatLine m | .noSection m => m

/-- The error is one of the library. -/
def IsCore (e : EdErr) : Prop := ∃ c, e = .core c

/-- The words of the kind. -/
def head : EdErr → Str
  | .core _ => [] | .documentNotFound _ => "Document not found: ".toList | .invalidPosition .. => "Invalid position: line ".toList
  | .outOfBounds .. => "Position out of bounds: ".toList | .invalidRange .. => "Invalid range: start ".toList
  | .commandFailed _ => "Command execution failed: ".toList | .history _ => "History operation failed: ".toList
  | .nothingToUndo => "Nothing to undo".toList | .nothingToRedo => "Nothing to redo".toList
  | .sessionLimit .. => "Session limit exceeded: ".toList | .searchIndex _ => "Search index error: ".toList
  | .extension .. => "Extension error: ".toList | .feature .. => "Feature '".toList | .arena _ => "Arena allocation failed: ".toList
  | .rope _ => "Rope operation failed: ".toList | .eventChannel _ => "Event channel error: ".toList
  | .validation _ => "Validation error: ".toList | .io _ => "IO error: ".toList | .invalidFormat _ => "Invalid format: ".toList
  | .unsupportedFormat _ => "Unsupported format: ".toList | .threadSafety _ => "Thread safety error: ".toList
  | .builder _ => "Builder validation error: ".toList | .serialization _ => "Serialization error: ".toList
  | .formatLine _ => "Format line error: ".toList | .noSection _ => "Section not found: ".toList

theorem head_eq (e : EdErr) : head e = heads.getD (num e) [] := by cases e <;> rfl

theorem text_head {e : EdErr} (h : ¬ IsCore e) : e.text = head e ++ body e := by
  cases e with
  | core c => exact absurd ⟨c, rfl⟩ h
  | nothingToUndo => exact (List.append_nil (head .nothingToUndo)).symm
  | nothingToRedo => exact (List.append_nil (head .nothingToRedo)).symm
  | invalidPosition l c =>
    show ("Invalid position: line ".toList ++ showNat l) ++ (", column ".toList ++ showNat c) =
      "Invalid position: line ".toList ++ (showNat l ++ (", column ".toList ++ showNat c))
    rw [List.append_assoc]
  | outOfBounds p n =>
    show ("Position out of bounds: ".toList ++ showNat p) ++ (" (document length: ".toList ++ showNat n) ++ ")".toList =
      "Position out of bounds: ".toList ++ (showNat p ++ (" (document length: ".toList ++ (showNat n ++ ")".toList)))
    rw [List.append_assoc, List.append_assoc, List.append_assoc]
  | invalidRange s e n =>
    show ("Invalid range: start ".toList ++ showNat s) ++ (", end ".toList ++ showNat e) ++ (" (document length: ".toList ++ showNat n) ++
        ")".toList =
      "Invalid range: start ".toList ++ (showNat s ++ (", end ".toList ++ (showNat e ++ (" (document length: ".toList ++ (showNat n ++
        ")".toList)))))
    rw [List.append_assoc, List.append_assoc, List.append_assoc, List.append_assoc, List.append_assoc]
  | sessionLimit c l =>
    show ("Session limit exceeded: ".toList ++ showNat c) ++ ("/".toList ++ showNat l) ++ " sessions".toList =
      "Session limit exceeded: ".toList ++ (showNat c ++ ("/".toList ++ (showNat l ++ " sessions".toList)))
    rw [List.append_assoc, List.append_assoc, List.append_assoc]
  | extension x m =>
    show "Extension error: ".toList ++ x ++ ": ".toList ++ m = "Extension error: ".toList ++ (x ++ (": ".toList ++ m))
    rw [List.append_assoc, List.append_assoc]
  | feature f r =>
    show "Feature '".toList ++ f ++ "' requires '".toList ++ r ++ "' feature flag".toList =
      "Feature '".toList ++ (f ++ ("' requires '".toList ++ (r ++ "' feature flag".toList)))
    rw [List.append_assoc, List.append_assoc, List.append_assoc]
  | _ => exact rfl

theorem text_eq {e : EdErr} (h : ¬ IsCore e) : num e < 24 ∧ e.text = heads.getD (num e) [] ++ body e := by
  rw [← head_eq]
  refine ⟨?_, text_head h⟩
  cases e with
  | core c => exact absurd ⟨c, rfl⟩ h
  | _ => dsimp only [num]; omega

theorem heads_table : (List.range 24).all (fun i => (List.range 24).all (fun j =>
    i == j || !(heads.getD i []).isPrefixOf (heads.getD j []))) = true := by decide +kernel

theorem heads_apart {i j : Nat} (hi : i < 24) (hj : j < 24) (h : (heads.getD i []).isPrefixOf (heads.getD j []) = true) : i = j := by
  have := List.all_eq_true.1 (List.all_eq_true.1 heads_table i (List.mem_range.2 hi)) j (List.mem_range.2 hj)
  rw [h] at this
  simpa using this

theorem num_cut {a b : Nat} {x y : Str} (hx : ∀ c ∈ x.head?, c.isDigit = false) (hy : ∀ c ∈ y.head?, c.isDigit = false)
    (h : showNat a ++ x = showNat b ++ y) : a = b ∧ x = y := by
  have tw : ∀ (n : Nat) (z : Str), (∀ c ∈ z.head?, c.isDigit = false) → (showNat n ++ z).takeWhile Char.isDigit = showNat n := by
    intro n z hz
    rw [List.takeWhile_append_of_pos (showNat_digits n)]
    cases z with
    | nil => simp
    | cons c z => rw [List.takeWhile_cons, hz c (by simp)]; simp
  have e := congrArg (List.takeWhile Char.isDigit) h
  rw [tw a x hx, tw b y hy] at e
  have : a = b := by rw [← ofDigitChars_showNat a, e, ofDigitChars_showNat]
  subst this
  exact ⟨rfl, List.append_cancel_left h⟩

theorem num_end {a b : Nat} (h : showNat a = showNat b) : a = b := by
  rw [← ofDigitChars_showNat a, h, ofDigitChars_showNat]

/-- Cutting at the first occurrence of a character. -/
theorem cut {c : Char} {a b x y : Str} (ha : c ∉ a) (hb : c ∉ b) (h : a ++ c :: x = b ++ c :: y) : a = b ∧ x = y := by
  induction a generalizing b with
  | nil =>
    cases b with
    | nil => exact ⟨rfl, (List.cons.inj h).2⟩
    | cons d b => exact absurd (by rw [(List.cons.inj h).1]; simp) hb
  | cons d a ih =>
    cases b with
    | nil => exact absurd (by rw [← (List.cons.inj h).1]; simp) ha
    | cons e b =>
      obtain ⟨h1, h2⟩ := List.cons.inj h
      obtain ⟨h3, h4⟩ := ih (fun k => ha (by simp [k])) (fun k => hb (by simp [k])) h2
      exact ⟨by rw [h1, h3], h4⟩

/-- The names in the error can be told from the words around them. -/
def Plain : EdErr → Prop
  | .extension x _ => ':' ∉ x
  | .feature f _ => '\'' ∉ f
  | _ => True

theorem same_num {a b : EdErr} (ha : ¬ IsCore a) (hb : ¬ IsCore b) (h : a.text = b.text) : num a = num b ∧ body a = body b := by
  obtain ⟨a1, a2⟩ := text_eq ha
  obtain ⟨b1, b2⟩ := text_eq hb
  rw [a2, b2] at h
  have e : num a = num b := by
    rcases List.append_eq_append_iff.1 h with ⟨x, h1, -⟩ | ⟨x, h1, -⟩
    · exact heads_apart a1 b1 (List.isPrefixOf_iff_prefix.2 ⟨x, h1.symm⟩)
    · exact (heads_apart b1 a1 (List.isPrefixOf_iff_prefix.2 ⟨x, h1.symm⟩)).symm
  rw [e] at h
  exact ⟨e, List.append_cancel_left h⟩

/-- **C166, partial.** Two errors of the editor with the same message are the same error: the message tells what happened, with all places,
lengths and names.

Missing: errors of the library (`C166_core_violated`), names of extensions with a colon and of features with a quote (`C166_names_violated`). -/
theorem C166_text_partial {a b : EdErr} (ha : ¬ IsCore a) (hb : ¬ IsCore b) (pa : Plain a) (pb : Plain b) (h : a.text = b.text) : a = b := by
  obtain ⟨hn, hb'⟩ := same_num ha hb h
  cases a <;> cases b <;> first
    | exact absurd ⟨_, rfl⟩ ha
    | exact absurd ⟨_, rfl⟩ hb
    | (dsimp only [num] at hn; omega)
    | rfl
    | skip
  all_goals dsimp only [body] at hb'
  case invalidPosition.invalidPosition =>
    obtain ⟨rfl, k⟩ := num_cut (by simp) (by simp) hb'
    obtain rfl := num_end (List.append_cancel_left k)
    rfl
  case outOfBounds.outOfBounds =>
    obtain ⟨rfl, k⟩ := num_cut (by simp) (by simp) hb'
    obtain ⟨rfl, -⟩ := num_cut (by simp) (by simp) (List.append_cancel_left k)
    rfl
  case invalidRange.invalidRange =>
    obtain ⟨rfl, k⟩ := num_cut (by simp) (by simp) hb'
    obtain ⟨rfl, k2⟩ := num_cut (by simp) (by simp) (List.append_cancel_left k)
    obtain ⟨rfl, -⟩ := num_cut (by simp) (by simp) (List.append_cancel_left k2)
    rfl
  case sessionLimit.sessionLimit =>
    obtain ⟨rfl, k⟩ := num_cut (by simp) (by simp) hb'
    obtain ⟨rfl, -⟩ := num_cut (by simp) (by simp) (List.append_cancel_left k)
    rfl
  case extension.extension x m x' m' =>
    change x ++ ':' :: (' ' :: m) = x' ++ ':' :: (' ' :: m') at hb'
    obtain ⟨rfl, k⟩ := cut pa pb hb'
    rw [(List.cons.inj k).2]
  case feature.feature x m x' m' =>
    change x ++ '\'' :: (" requires '".toList ++ (m ++ "' feature flag".toList)) =
      x' ++ '\'' :: (" requires '".toList ++ (m' ++ "' feature flag".toList)) at hb'
    obtain ⟨rfl, k⟩ := cut pa pb hb'
    have k := List.append_cancel_left (as := " requires '".toList) k
    rw [List.append_cancel_right k]
  all_goals rw [hb']

example : (EdErr.invalidRange 1 12 7).text = "Invalid range: start 1, end 12 (document length: 7)".toList := by decide +kernel
example : Plain (.extension "a".toList ": b".toList) ∧ ¬ IsCore (.extension "a".toList ": b".toList) := ⟨by unfold Plain; decide, fun ⟨_, h⟩ => by cases h⟩

/-- **C166, disagreement.** The editor's own validation errors read like those of the library, from which they differ in kind. -/
theorem C166_core_violated (m : Str) : (EdErr.validation m).text = (EdErr.core (.validation m)).text ∧ EdErr.validation m ≠ .core (.validation m) :=
  ⟨rfl, by simp⟩

/-- **C166, disagreement.** Extensions and features with odd names: different errors, the same message. -/
theorem C166_names_violated :
    (EdErr.extension "a: b".toList "c".toList).text = (EdErr.extension "a".toList "b: c".toList).text ∧
    (EdErr.feature "a' requires 'b".toList "c".toList).text = (EdErr.feature "a".toList "b' requires 'c".toList).text := by decide +kernel

open Verif.Doc Verif.Spec

/-- **C166.** An insertion fails exactly if its place lies behind the text, a deletion exactly if its end does; the error then names the place
or the range, and the length of the document. -/
theorem C166_edits (d : Doc) (pos : Nat) (t : Str) (r : Range) :
    ((d.insert pos t).1 = .err ↔ (insertError d pos).isSome) ∧
    (∀ e, insertError d pos = some e → byteLen d.text < pos ∧ e = .outOfBounds pos (byteLen d.text)) ∧
    ((d.delete r).1 = .err ↔ (deleteError d r).isSome) ∧
    (∀ e, deleteError d r = some e → byteLen d.text < r.fin ∧ e = .invalidRange r.start r.fin (byteLen d.text)) := by
  unfold insertError insertErr deleteError rangeErr
  refine ⟨?_, ?_, ?_, ?_⟩
  · simp only [Doc.insert, insertRaw]
    by_cases h : pos > byteLen d.text <;> simp [h]
  · intro e he
    by_cases h : pos > byteLen d.text
    · rw [if_pos h] at he; exact ⟨h, (Option.some.inj he).symm⟩
    · rw [if_neg h] at he; cases he
  · simp only [Doc.delete, textRange, deleteRaw]
    by_cases h : r.fin > byteLen d.text
    · simp [h]
    · by_cases k : byteToChar d.text r.start ≤ byteToChar d.text r.fin <;> simp [h, k]
  · intro e he
    by_cases h : r.fin > byteLen d.text
    · rw [if_pos h] at he; exact ⟨h, (Option.some.inj he).symm⟩
    · rw [if_neg h] at he; cases he

example : insertError exDoc 7 = some (.outOfBounds 7 6) ∧ deleteError exDoc ⟨2, 9⟩ = some (.invalidRange 2 9 6) := by decide +kernel

/-- **C166.** A replacement (of a range that is in order) fails exactly if there is an error to be given; if its range begins between two
characters the error names the range and the length of the document.

Missing: ranges that begin within a character (`C166_replace_violated`). -/
theorem C166_replace_partial (d : Doc) (r : Range) (t : Str) (ho : Ordered r) :
    ((d.replace r t).1 = .err ↔ (replaceError d r).isSome) ∧
    (∀ p s e, d.text = p ++ s → r.start = byteLen p → replaceError d r = some e →
      byteLen d.text < r.fin ∧ e = .invalidRange r.start r.fin (byteLen d.text)) := by
  have hm := byteToChar_mono d.text (m := r.start) (n := r.fin) ho
  refine ⟨?_, ?_⟩
  · simp only [Doc.replace, textRange, replaceRaw, replaceError, rangeErr, insertErr, deleteRaw, insertRaw]
    by_cases h : r.fin > byteLen d.text
    · simp [h]
    · simp only [h, if_false, hm, if_true]
      generalize List.take (byteToChar d.text r.start) d.text ++ List.drop (byteToChar d.text r.fin) d.text = u
      by_cases hu : r.start > byteLen u
      · simp [hu]
      · simp [hu]
  · intro p s e hp hs he
    unfold replaceError rangeErr at he
    by_cases h : r.fin > byteLen d.text
    · rw [if_pos h] at he; exact ⟨h, (Option.some.inj he).symm⟩
    · rw [if_neg h] at he
      dsimp only at he
      unfold insertErr deleteRaw at he
      simp only [h, if_false, hm, if_true] at he
      have e1 : byteToChar d.text r.start = p.length := by rw [hp, hs, byteToChar_append]
      rw [e1, show d.text.take p.length = p by rw [hp]; simp, byteLen_append, if_neg (by omega)] at he
      cases he

example : replaceError exDoc ⟨1, 9⟩ = some (.invalidRange 1 9 6) ∧ replaceError exDoc ⟨1, 3⟩ = none := by decide +kernel

/-- **C166, disagreement.** A replacement that begins within the last character names a place that lies within the document it was given. -/
theorem C166_replace_violated : replaceError ⟨"é".toList, Stack.new ⟨50, 0, 100⟩⟩ ⟨1, 2⟩ = some (.outOfBounds 1 0) := by decide +kernel

end Verif.Props.EditorError
