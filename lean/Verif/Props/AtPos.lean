import Verif.Model.AtPos
import Verif.Props.Doc
/-!
# C165 — edits at a position
-/
namespace Verif.Props.AtPos
open Verif Verif.Pos Verif.Doc Verif.Spec Verif.AtPos

theorem range_new (a n : Nat) : Range.new a (a + n) = ⟨a, a + n⟩ := by
  unfold Range.new
  rw [if_pos (by omega)]

theorem plus_small {c : Bool} {a b : Nat} (h : a + b < 2 ^ 64) : plus c a b = .ok (a + b) := by unfold plus; rw [if_pos h]

/-- **C165.** At the position behind `p` in the text `p ++ m ++ s`, with or without overflow checks: inserting puts the text there,
deleting as many bytes as `m` has removes exactly `m`, and replacing them puts the new text in the place of `m`. -/
theorem C165_at (checks : Bool) (d : Doc) (p m s t : Str) (h : d.text = p ++ m ++ s) (hl : byteLen d.text < 2 ^ 64) :
    ((insertText d (byteLen p) t).1 = .ok () ∧ (insertText d (byteLen p) t).2.text = p ++ t ++ m ++ s) ∧
    ((deleteRange checks d (byteLen p) (byteLen m)).1 = .ok () ∧ (deleteRange checks d (byteLen p) (byteLen m)).2.text = p ++ s) ∧
    ((replaceText checks d (byteLen p) (byteLen m) t).1 = .ok () ∧
      (replaceText checks d (byteLen p) (byteLen m) t).2.text = p ++ t ++ s) := by
  have hs : byteLen p + byteLen m < 2 ^ 64 := by
    rw [h, byteLen_append, byteLen_append] at hl; omega
  refine ⟨?_, ?_, ?_⟩
  · have := C15_edit_exact d (.insert (byteLen p) t) (p ++ t ++ (m ++ s)) (by rw [h, List.append_assoc]; exact .insert p (m ++ s) t)
    exact ⟨this.1, this.2.trans (by simp)⟩
  · unfold deleteRange
    rw [plus_small hs]; dsimp only; rw [range_new]
    exact C15_edit_exact d (.delete ⟨byteLen p, byteLen p + byteLen m⟩) (p ++ s) (by rw [h]; exact .delete p m s)
  · unfold replaceText
    rw [plus_small hs]; dsimp only; rw [range_new]
    exact C15_edit_exact d (.replace ⟨byteLen p, byteLen p + byteLen m⟩ t) (p ++ t ++ s) (by rw [h]; exact .replace p m s t)

example : (deleteRange true exDoc 1 2).2.text = "hllo".toList ∧ (replaceText false exDoc 1 2 "ab".toList).2.text = "habllo".toList := by
  decide +kernel

/-- **C165.** A position or a length that leads behind the text is refused, and the document, its history included, stays as it is; as long as
the end can be represented, whether or not there are overflow checks. -/
theorem C165_refused (checks : Bool) (d : Doc) (pos len : Nat) (t : Str) :
    (byteLen d.text < pos → insertText d pos t = (.err, d)) ∧
    (byteLen d.text < pos + len → pos + len < 2 ^ 64 →
      deleteRange checks d pos len = (.err, d) ∧ replaceText checks d pos len t = (.err, d)) := by
  obtain ⟨h1, h2, h3⟩ := C15_rejected_unchanged d
  refine ⟨h1 pos t, fun hb hs => ?_⟩
  unfold deleteRange replaceText
  rw [plus_small hs]
  dsimp only
  rw [range_new]
  exact ⟨h2 _ hb, h3 _ t hb⟩

example : deleteRange false exDoc 1 6 = (.err, exDoc) := ((C165_refused false exDoc 1 6 []).2 (by decide +kernel) (by decide)).1

/-- **C165.** With an end that can be represented, inserting and deleting at any offset, also within a character, succeed or are refused
without effect; so does replacing at the border of two characters (within one see `C15_rejected_replace_violated`). -/
theorem C165_total (checks : Bool) (d : Doc) (pos len : Nat) (t : Str) (hs : pos + len < 2 ^ 64) :
    ((insertText d pos t).1 = .ok () ∨ insertText d pos t = (.err, d)) ∧
    ((deleteRange checks d pos len).1 = .ok () ∨ deleteRange checks d pos len = (.err, d)) ∧
    (∀ p s, d.text = p ++ s → pos = byteLen p →
      (replaceText checks d pos len t).1 = .ok () ∨ replaceText checks d pos len t = (.err, d)) := by
  obtain ⟨h1, h2⟩ := C15_insert_delete_total d
  refine ⟨h1 pos t, ?_, ?_⟩
  · unfold deleteRange
    rw [plus_small hs]; dsimp only; rw [range_new]
    exact h2 _ (by unfold Ordered; dsimp only; omega)
  · intro p s h hp
    subst hp
    unfold replaceText
    rw [plus_small hs]; dsimp only; rw [range_new]
    exact C15_replace_total_partial d p s _ t h (by omega)

example : (deleteRange true exDoc 2 1).1 = .ok () := by decide +kernel

/-- **C165.** Undoing an insertion or a deletion at a position gives back the text. -/
theorem C165_undo (checks : Bool) (d : Doc) (hd : Reachable d) (p m s t : Str) (h : d.text = p ++ m ++ s) (hl : byteLen d.text < 2 ^ 64) :
    (HasRoom d [.insert (byteLen p) t] → ∃ d', (insertText d (byteLen p) t).2.undo = (.ok (), d') ∧ d'.text = d.text) ∧
    (HasRoom d [.delete ⟨byteLen p, byteLen p + byteLen m⟩] →
      ∃ d', (deleteRange checks d (byteLen p) (byteLen m)).2.undo = (.ok (), d') ∧ d'.text = d.text) := by
  have hs : byteLen p + byteLen m < 2 ^ 64 := by
    rw [h, byteLen_append, byteLen_append] at hl; omega
  refine ⟨fun hr => C12_undo_insert d hd p (m ++ s) t (by rw [h, List.append_assoc]) hr, fun hr => ?_⟩
  unfold deleteRange
  rw [plus_small hs]; dsimp only; rw [range_new]
  exact C12_undo_delete d hd p m s h hr

example : (deleteRange true exDoc 1 2).2.undo.2.text = exDoc.text := by decide +kernel

/-- **C165, disagreement.** A length whose end cannot be represented is not refused: with overflow checks the program panics; without them
text *before* the position is deleted or replaced. -/
theorem C165_overflow_violated :
    (deleteRange true exDoc 1 (2 ^ 64 - 1)).1 = .panic ∧ (replaceText true exDoc 1 (2 ^ 64 - 1) []).1 = .panic ∧
    (deleteRange false exDoc 1 (2 ^ 64 - 1)).1 = .ok () ∧ (deleteRange false exDoc 1 (2 ^ 64 - 1)).2.text = "éllo".toList ∧
    (replaceText false exDoc 1 (2 ^ 64 - 1) "J".toList).2.text = "Jéllo".toList := by decide +kernel

/-- **C165, disagreement.** This is so for every text and every position in it: with checks every overflow panics; without them, deleting
`2 ^ 64 - k` bytes deletes the `k` bytes before the position. -/
theorem C165_wraps_violated (d : Doc) (p m s : Str) (hm : m ≠ []) (h : d.text = p ++ m ++ s) (hl : byteLen d.text < 2 ^ 64) :
    (deleteRange true d (byteLen p + byteLen m) (2 ^ 64 - byteLen m)).1 = .panic ∧
    (deleteRange false d (byteLen p + byteLen m) (2 ^ 64 - byteLen m)).1 = .ok () ∧
    (deleteRange false d (byteLen p + byteLen m) (2 ^ 64 - byteLen m)).2.text = p ++ s := by
  have hs : byteLen p + byteLen m < 2 ^ 64 := by
    rw [h, byteLen_append, byteLen_append] at hl; omega
  have hpos : 0 < byteLen m := by
    cases m with
    | nil => exact absurd rfl hm
    | cons c m => rw [byteLen_cons]; have := c.utf8Size_pos; omega
  have e : byteLen p + byteLen m + (2 ^ 64 - byteLen m) = byteLen p + 2 ^ 64 := by omega
  have e2 : (byteLen p + 2 ^ 64) % 2 ^ 64 = byteLen p := by rw [Nat.add_mod_right]; exact Nat.mod_eq_of_lt (by omega)
  unfold deleteRange plus
  have hn : ¬ byteLen p + 2 ^ 64 < 2 ^ 64 := by omega
  rw [e, e2]
  simp only [if_neg hn, Bool.false_eq_true, if_false, if_true]
  have r : Range.new (byteLen p + byteLen m) (byteLen p) = ⟨byteLen p, byteLen p + byteLen m⟩ := by
    unfold Range.new
    rw [if_neg (by omega)]
  rw [r]
  have := C15_edit_exact d (.delete ⟨byteLen p, byteLen p + byteLen m⟩) (p ++ s) (by rw [h]; exact .delete p m s)
  exact ⟨trivial, this.1, this.2⟩

end Verif.Props.AtPos
