import Verif.Spec.DeltaCmd
import Verif.Props.IncEdit
/-!
# C145 — commands that edit incrementally
-/
namespace Verif.Props.DeltaCmd
open Verif Verif.Pos Verif.Doc Verif.DeltaCmd
open Verif.Parser (Section)
open Verif.DeltaApply (Delta)
open Verif.IncEdit
open Verif.Spec.Script (size)
open Verif.Spec.DocEdit (FirstAt)
open Verif.Spec.IncEdit Verif.Spec.DeltaCmd

theorem insert_is (dbg : Section → Str) (d : IDoc) (a new : Str) : insertInc dbg d (size a) new = edit dbg d (place a []) new := by
  unfold insertInc
  congr 1
  show (if size a ≤ size a then (⟨size a, size a⟩ : Range) else ⟨size a, size a⟩) = _
  rw [if_pos (Nat.le_refl _)]
  rfl

theorem range_is (a new : Str) : Range.new (size a) (size a + byteLen new) = place a new := by
  show (if size a ≤ size a + byteLen new then (⟨size a, size a + byteLen new⟩ : Range) else _) = _
  rw [if_pos (by omega)]
  rfl

theorem run_ok {dbg : Section → Str} {d : IDoc} {c : Cmd} {δ : Delta} {t : Str} (h1 : (attempt dbg d c).1 = .ok δ)
    (h2 : (attempt dbg d c).2.text = t) : (execute dbg d c).1 = .ok (result c (some δ)) ∧ (execute dbg d c).2.text = t := by
  unfold execute
  cases he : attempt dbg d c with
  | mk o d' =>
    rw [he] at h1 h2
    dsimp only at h1 h2
    subst h1 h2
    exact ⟨rfl, rfl⟩

/-- **C145, insertion.** Inserting at a character of the text puts the new text there and leaves the rest alone; the range reported is
that of the new text, the cursor its end, and the change is reported with a delta.  (The edit must be short, or the text the parser keeps
must allow it: otherwise it panics, see C118.)
Missing: long edits for which the parser has fallen behind, which panic (C118). -/
theorem C145_insert_partial (dbg : Section → Str) (d : IDoc) {a b : Str} (new : Str) (h : d.text = a ++ b)
    (hc : Short [] new ∨ ¬ Unfit d a []) :
    ∃ δ, (execute dbg d (.insert (size a) new)).1 = .ok ⟨true, some (place a new), some (size a + size new), true, some δ⟩ ∧
      (execute dbg d (.insert (size a) new)).2.text = a ++ new ++ b := by
  obtain ⟨δ, h1, h2⟩ := (C118_text dbg d (a := a) (m := []) (b := b) new (by rw [h, List.append_nil])).1 hc
  rw [← insert_is] at h1 h2
  refine ⟨δ, ?_⟩
  have := run_ok (c := .insert (size a) new) h1 h2
  rw [this.1]
  refine ⟨?_, this.2⟩
  simp only [result, placed, range_is]
  rfl

example (dbg : Section → Str) (d : IDoc) (h : d.text = "aéb".toList) : ∃ δ, (execute dbg d (.insert 3 "xy".toList)).1 =
    .ok ⟨true, some ⟨3, 5⟩, some 5, true, some δ⟩ ∧ (execute dbg d (.insert 3 "xy".toList)).2.text = "aéxyb".toList :=
  C145_insert_partial dbg d (a := "aé".toList) (b := "b".toList) "xy".toList h (.inl (by unfold Short; decide))

/-- **C145, replacement.** The same for replacing characters of the text.
Missing: long edits for which the parser has fallen behind, which panic (C118). -/
theorem C145_replace_partial (dbg : Section → Str) (d : IDoc) {a m b : Str} (new : Str) (h : d.text = a ++ m ++ b)
    (hc : Short m new ∨ ¬ Unfit d a m) :
    ∃ δ, (execute dbg d (.replace (place a m) new)).1 = .ok ⟨true, some (place a new), some (size a + size new), true, some δ⟩ ∧
      (execute dbg d (.replace (place a m) new)).2.text = a ++ new ++ b := by
  obtain ⟨δ, h1, h2⟩ := (C118_text dbg d new h).1 hc
  refine ⟨δ, ?_⟩
  have := run_ok (c := .replace (place a m) new) h1 h2
  rw [this.1]
  refine ⟨?_, this.2⟩
  simp only [result, placed]
  show Outcome.ok (⟨true, some (Range.new (size a) (size a + byteLen new)), _, _, _⟩ : Result) = _
  rw [range_is]
  rfl

example (dbg : Section → Str) (d : IDoc) (h : d.text = "aéb".toList) : ∃ δ, (execute dbg d (.replace ⟨1, 3⟩ "xyz".toList)).1 =
    .ok ⟨true, some ⟨1, 4⟩, some 4, true, some δ⟩ ∧ (execute dbg d (.replace ⟨1, 3⟩ "xyz".toList)).2.text = "axyzb".toList :=
  C145_replace_partial dbg d (a := "a".toList) (m := "é".toList) (b := "b".toList) "xyz".toList h (.inl (by unfold Short; decide))

/-- **C145, events.** Editing an event by its text replaces the first occurrence of that text; no place is reported.
Missing: texts that do not occur (`C145_event_violated`), and long edits for which the parser has fallen behind. -/
theorem C145_event_partial (dbg : Section → Str) (d : IDoc) {old a b : Str} (new : Str) (h : FirstAt old d.text a)
    (hb : d.text = a ++ old ++ b) (hc : Short old new ∨ ¬ Unfit d a old) :
    ∃ δ, (execute dbg d (.event old new)).1 = .ok ⟨true, none, none, true, some δ⟩ ∧
      (execute dbg d (.event old new)).2.text = a ++ new ++ b := by
  obtain ⟨δ, h1, h2⟩ := (C118_text dbg d new hb).1 hc
  rw [← (C118_event dbg d old new).2 a h] at h1 h2
  exact ⟨δ, run_ok (c := .event old new) h1 h2⟩

/-- **C145, refused.** An insertion beyond the end, or a replacement that reaches beyond it, is refused and changes nothing. -/
theorem C145_refused (dbg : Section → Str) (d : IDoc) (new : Str) :
    (∀ pos, size d.text < pos → execute dbg d (.insert pos new) = (.err, d)) ∧
    (∀ r : Range, size d.text < r.fin → execute dbg d (.replace r new) = (.err, d)) := by
  constructor
  · intro pos hp
    have hr : Range.new pos pos = ⟨pos, pos⟩ := by
      show (if pos ≤ pos then (⟨pos, pos⟩ : Range) else _) = _
      rw [if_pos (Nat.le_refl _)]
    have ha : attempt dbg d (.insert pos new) = (.err, d) := by
      show insertInc dbg d pos new = _
      unfold insertInc
      rw [hr]
      exact (C118_refused dbg d ⟨pos, pos⟩ new hp).1
    unfold execute
    rw [ha]
    simp only [regular, insertDoc, insertRaw]
    rw [if_pos (show pos > byteLen d.text from hp)]
  · intro r hr
    have ha : attempt dbg d (.replace r new) = (.err, d) := (C118_refused dbg d r new hr).1
    have ht : textRange d.text r = .err := by
      unfold textRange
      exact if_pos hr
    unfold execute
    rw [ha]
    simp only [regular, IDoc.replace]
    rw [ht]

/-- **C145, disagreement.** Editing an event whose text does not occur leaves the document alone, but reports success and a change. -/
theorem C145_event_violated (dbg : Section → Str) (d : IDoc) (old new : Str) (h : ∀ a b, d.text ≠ a ++ old ++ b) :
    execute dbg d (.event old new) = (.ok ⟨true, none, none, true, none⟩, d) := by
  have ha : attempt dbg d (.event old new) = (.err, d) := (C118_event dbg d old new).1 h
  unfold execute
  rw [ha]
  simp only [regular, editEventText]
  rw [splitOnceStr_none.2 h]
  rfl

example : ∀ a b : Str, "Hi".toList ≠ a ++ "Ho".toList ++ b := by
  rw [← splitOnceStr_none]
  decide

/-- **C145, batches.** A batch of short insertions and replacements of whole characters does one after the other and gives one result for
each.  Partial: long edits among short ones may panic (see `C118_typed_violated`). -/
theorem C145_batch_partial (dbg : Section → Str) {cs : List Cmd} {s t : Str} (h : Texts s cs t) :
    ∀ d : IDoc, d.text = s → ∃ rs, (executeBatch dbg d cs).1 = .ok rs ∧ rs.length = cs.length ∧ (executeBatch dbg d cs).2.text = t := by
  induction h with
  | nil t => exact fun d hd => ⟨[], rfl, rfl, hd⟩
  | insert hs _ ih =>
    intro d hd
    rename_i a new b t' r _
    obtain ⟨δ, h1, h2⟩ := C145_insert_partial dbg d new hd (.inl hs)
    rw [executeBatch]
    cases he : execute dbg d (.insert (size a) new) with
    | mk o d' =>
      rw [he] at h1 h2
      dsimp only at h1 h2
      subst h1
      obtain ⟨rs, k1, k2, k3⟩ := ih d' h2
      cases hb : executeBatch dbg d' r with
      | mk o' d'' =>
        rw [hb] at k1 k3
        dsimp only at k1 k3
        subst k1
        simp only [hb]
        exact ⟨_, rfl, by rw [List.length_cons, List.length_cons, k2], k3⟩
  | replace hs _ ih =>
    intro d hd
    rename_i a m new b t' r _
    obtain ⟨δ, h1, h2⟩ := C145_replace_partial dbg d new hd (.inl hs)
    rw [executeBatch]
    cases he : execute dbg d (.replace (place a m) new) with
    | mk o d' =>
      rw [he] at h1 h2
      dsimp only at h1 h2
      subst h1
      obtain ⟨rs, k1, k2, k3⟩ := ih d' h2
      cases hb : executeBatch dbg d' r with
      | mk o' d'' =>
        rw [hb] at k1 k3
        dsimp only at k1 k3
        subst k1
        simp only [hb]
        exact ⟨_, rfl, by rw [List.length_cons, List.length_cons, k2], k3⟩

example : Texts "ab".toList [.insert 1 "xé".toList, .replace ⟨1, 4⟩ "y".toList] "ayb".toList :=
  .insert (a := "a".toList) (b := "b".toList) (by unfold Short; decide)
    (.replace (a := "a".toList) (m := "xé".toList) (b := "b".toList) (by unfold Short; decide) (.nil _))

/-- **C145, disagreement.** A batch that fails is not taken back: what came before the command that failed stays. -/
theorem C145_batch_violated (dbg : Section → Str) (d : IDoc) {new : Str} (hn : new ≠ []) (hs : Short [] new) (pos : Nat)
    (hp : size d.text + size new < pos) :
    (executeBatch dbg d [.insert 0 new, .insert pos new]).1 = .err ∧
    (executeBatch dbg d [.insert 0 new, .insert pos new]).2.text = new ++ d.text ∧ new ++ d.text ≠ d.text := by
  obtain ⟨δ, h1, h2⟩ := C145_insert_partial dbg d (a := []) (b := d.text) new rfl (.inl hs)
  have h0 : size ([] : Str) = 0 := rfl
  rw [h0] at h1 h2
  simp only [executeBatch]
  cases he : execute dbg d (.insert 0 new) with
  | mk o d' =>
    rw [he] at h1 h2
    dsimp only at h1 h2
    subst h1
    simp only
    rw [(C145_refused dbg d' new).1 pos (by
      rw [h2, List.nil_append]
      have : size (new ++ d.text) = size new + size d.text := byteLen_append _ _
      omega)]
    refine ⟨rfl, h2, fun e => hn ?_⟩
    have := congrArg List.length e
    rw [List.length_append] at this
    exact List.length_eq_zero_iff.1 (by omega)

end Verif.Props.DeltaCmd
