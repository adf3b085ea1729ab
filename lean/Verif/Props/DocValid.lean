import Verif.Spec.DocValid
import Verif.Props.Doc
import Verif.Props.Lint
/-!
# C169 — the validation result a document remembers
-/
namespace Verif.Props.DocValid
open Verif Verif.Pos Verif.Lint Verif.DocValid Verif.Spec.DocValid
open Verif.Ast (Style)

/-- What is remembered is what validating the text anew would give. -/
def UpToDate (alone child : Style → Bool) (d : VDoc) : Prop :=
  ∀ r, d.val.cached = some r → fresh alone child d.val.config d.doc.text = .ok r

theorem keep {alone child : Style → Bool} {d : VDoc} {o : Outcome Unit} {x : Doc.Doc} (h : UpToDate alone child d)
    (hx : o = .ok () ∨ x.text = d.doc.text) : UpToDate alone child ⟨x, cleared d.val o⟩ := by
  rcases hx with rfl | hx
  · intro r hr
    cases hr
  · intro r hr
    dsimp only at hr ⊢
    rw [hx]
    cases o with
    | ok _ => cases hr
    | err => exact h r hr
    | panic => exact h r hr

theorem insert_or (d : Doc.Doc) (p : Nat) (t : Str) : (d.insert p t).1 = .ok () ∨ (d.insert p t).2.text = d.text := by
  rcases (C15_insert_delete_total d).1 p t with h | h
  · exact .inl h
  · rw [h]; exact .inr rfl

theorem delete_or (d : Doc.Doc) {r : Range} (ho : r.start ≤ r.fin) : (d.delete r).1 = .ok () ∨ (d.delete r).2.text = d.text := by
  rcases (C15_insert_delete_total d).2 r ho with h | h
  · exact .inl h
  · rw [h]; exact .inr rfl

theorem take_at {s a b : Str} {n : Nat} (h : s = a ++ b) (hn : byteLen a = n) : s.take (Doc.byteToChar s n) = a := by
  rw [h, ← hn, Doc.byteToChar_append, List.take_left]

theorem replace_or (d : Doc.Doc) {r : Range} (t : Str) (ho : r.start ≤ r.fin) (ha : Apart d.text r.start) :
    (d.replace r t).1 = .ok () ∨ (d.replace r t).2.text = d.text := by
  by_cases hf : r.fin > byteLen d.text
  · right
    simp [Doc.Doc.replace, Doc.textRange, hf]
  · rcases ha with ⟨a, b, h, hn⟩ | hb
    · left
      have hm := Doc.byteToChar_mono d.text ho
      have ht := take_at h hn
      simp only [Doc.Doc.replace, Doc.textRange, Doc.replaceRaw, Doc.deleteRaw, Doc.insertRaw, hf, if_false, hm, if_true, ht]
      rw [if_neg (by rw [byteLen_append]; omega)]
    · omega

theorem execInsert_or (d : Doc.Doc) (p : Nat) (t : Str) : (d.execInsert p t).1 = .ok () ∨ (d.execInsert p t).2.text = d.text := by
  by_cases hp : p > byteLen d.text
  · right
    simp [Doc.Doc.execInsert, Doc.insertRaw, hp]
  · left
    simp only [Doc.Doc.execInsert, Doc.insertRaw, hp, if_false]
    rw [Doc.new_of_le (by omega)]
    generalize hs : List.take (Doc.byteToChar d.text p) d.text ++ t ++ List.drop (Doc.byteToChar d.text p) d.text = s
    have hm := Doc.byteToChar_mono s (m := p) (n := p + byteLen t) (by omega)
    have hl : byteLen s = byteLen d.text + byteLen t := by
      rw [← hs, byteLen_append, byteLen_append]
      have := byteLen_append (List.take (Doc.byteToChar d.text p) d.text) (List.drop (Doc.byteToChar d.text p) d.text)
      rw [List.take_append_drop] at this
      omega
    have hn : ¬ (p + byteLen t > byteLen s) := by rw [hl]; omega
    simp only [Doc.textRange, hn, if_false, hm, if_true]
    split <;> rfl

theorem execDelete_or (d : Doc.Doc) {r : Range} (ho : r.start ≤ r.fin) (ha : Apart d.text r.start) :
    (d.execDelete r).1 = .ok () ∨ (d.execDelete r).2.text = d.text := by
  by_cases hf : r.fin > byteLen d.text
  · right
    simp [Doc.Doc.execDelete, Doc.deleteRaw, hf]
  · rcases ha with ⟨a, b, h, hn⟩ | hb
    · left
      have hm := Doc.byteToChar_mono d.text ho
      have ht := take_at h hn
      simp only [Doc.Doc.execDelete, Doc.deleteRaw, hf, if_false, hm, if_true, ht]
      rw [Doc.new_of_le (by omega)]
      simp only [Doc.textRange]
      rw [if_neg (by rw [byteLen_append]; omega), if_pos (Nat.le_refl _)]
    · omega

theorem validate_up {alone child : Style → Bool} {d : VDoc} {now : Nat} (h : UpToDate alone child d) :
    UpToDate alone child (d.validate alone child now).2 ∧
    (∀ r, (d.validate alone child now).1 = .ok r → fresh alone child d.val.config d.doc.text = .ok r ∧
      (d.validate alone child now).2.remembered = some r ∧ (d.validate alone child now).2.doc = d.doc) := by
  unfold VDoc.validate Validator.validate
  by_cases hh : d.val.hit (Lint.hash d.doc.text) now = true
  · rw [if_pos hh]
    cases hc : d.val.cached with
    | none => exact ⟨h, fun r hr => by cases hr⟩
    | some r =>
      refine ⟨h, fun r' hr => ?_⟩
      cases hr
      exact ⟨h r hc, hc, rfl⟩
  · rw [if_neg hh]
    cases hf : fresh alone child d.val.config d.doc.text with
    | ok r =>
      refine ⟨?_, fun r' hr => ?_⟩
      · intro r' hr
        cases hr
        exact hf
      · cases hr
        exact ⟨rfl, rfl, rfl⟩
    | err => exact ⟨h, fun r hr => by cases hr⟩
    | panic => exact ⟨h, fun r hr => by cases hr⟩

theorem force_up {alone child : Style → Bool} {d : VDoc} {now : Nat} : UpToDate alone child (d.force alone child now).2 := by
  unfold VDoc.force
  cases hf : d.val.force alone child now d.doc.text with
  | ok x =>
    obtain ⟨r, v⟩ := x
    have h1 := C42_force alone child d.val now d.doc.text hf
    unfold Validator.force Validator.validate at hf
    rw [show Validator.hit { d.val with cached := none } (Lint.hash d.doc.text) now = false by unfold Validator.hit; simp, if_neg (by simp)] at hf
    simp only [h1] at hf
    injection hf with hf
    injection hf with _ h2
    intro r' hr
    subst h2
    cases hr
    exact h1
  | err => intro r hr; cases hr
  | panic => intro r hr; cases hr

theorem made_up {alone child : Style → Bool} {d : VDoc} (h : Made alone child d) : UpToDate alone child d := by
  induction h with
  | start cfg c s => intro r hr; cases hr
  | @step d x _ hc ih =>
    cases x with
    | insert p t => exact keep ih (insert_or d.doc p t)
    | delete r => exact keep ih (delete_or d.doc hc)
    | replace r t => exact keep ih (replace_or d.doc t hc.1 hc.2)
    | execInsert p t => exact keep ih (execInsert_or d.doc p t)
    | execDelete r => exact keep ih (execDelete_or d.doc hc.1 hc.2)
    | validate now => exact (validate_up ih).1
    | force now => exact force_up
    | isValid now =>
      have := (validate_up (now := now) ih).1
      show UpToDate alone child (d.isValid alone child now).2
      unfold VDoc.isValid
      cases hv : d.validate alone child now with
      | mk o d' =>
        rw [hv] at this
        cases o <;> exact this
    | setConfig c => intro r hr; cases hr

/-- **C169, partial.** Whatever was edited, executed and validated before, the result a document remembers is the one validating its text anew
would give.

Missing: undoing, redoing, commands not executed through the document, and replacements and deletions that begin within a character (see
below). -/
theorem C169_remembered_partial {alone child : Style → Bool} {d : VDoc} (h : Made alone child d) {r : Result} (hr : d.remembered = some r) :
    fresh alone child d.val.config d.doc.text = .ok r := made_up h r hr

/-- **C169, partial.** So validating gives the result for the very text the document has: texts with the same hash are not confused; it is
remembered, and the answer whether the document is valid is that of this result.

Missing: as above. -/
theorem C169_validate_partial {alone child : Style → Bool} {d : VDoc} (h : Made alone child d) (now : Nat) :
    (∀ r, (d.validate alone child now).1 = .ok r → fresh alone child d.val.config d.doc.text = .ok r ∧
      (d.validate alone child now).2.remembered = some r ∧ (d.validate alone child now).2.doc = d.doc) ∧
    (∀ b, (d.isValid alone child now).1 = .ok b → ∃ r, fresh alone child d.val.config d.doc.text = .ok r ∧ b = r.valid) := by
  have k := (validate_up (now := now) (made_up h)).2
  refine ⟨k, ?_⟩
  intro b hb
  unfold VDoc.isValid at hb
  cases hv : d.validate alone child now with
  | mk o d' =>
    rw [hv] at hb
    cases o with
    | ok r =>
      cases hb
      refine ⟨r, (k r (by rw [hv])).1, rfl⟩
    | err => cases hb
    | panic => cases hb

/-- **C169.** After an edit that succeeded nothing is remembered, so the next validation looks at the text. -/
theorem C169_forgotten (d : VDoc) :
    (∀ p t, (d.insert p t).1 = .ok () → (d.insert p t).2.remembered = none) ∧ (∀ r, (d.delete r).1 = .ok () → (d.delete r).2.remembered = none) ∧
    (∀ r t, (d.replace r t).1 = .ok () → (d.replace r t).2.remembered = none) ∧
    (∀ p t, (d.execInsert p t).1 = .ok () → (d.execInsert p t).2.remembered = none) ∧
    (∀ r, (d.execDelete r).1 = .ok () → (d.execDelete r).2.remembered = none) ∧ (∀ c, (d.setConfig c).remembered = none) := by
  have key : ∀ (o : Outcome Unit), o = .ok () → (cleared d.val o).cached = none := by rintro o rfl; rfl
  exact ⟨fun _ _ h => key _ h, fun _ h => key _ h, fun _ _ h => key _ h, fun _ _ h => key _ h, fun _ h => key _ h, fun _ => rfl⟩

/-- A document that is validated after a header has been written into it. -/
def begun : VDoc :=
  let d := VDoc.ofText ⟨50, 0, 100⟩ VConfig.default []
  (((d.insert 0 "[Events]".toList).2).validate (fun _ => true) (fun _ => true) 0).2

theorem begun_made : Made (fun _ => true) (fun _ => true) begun := .step (.validate 0) (.step (.insert 0 _) (.start _ _ _) trivial) trivial

example : begun.remembered = some ⟨[⟨.warning, .noInfo⟩], true, 1, 0⟩ := by decide +kernel

/-- **C169, disagreement.** Undoing and redoing change the text, but the result remembered stays: after the header has been taken back, what is
said about missing sections is wrong. -/
theorem C169_undo_violated :
    (∀ d : VDoc, d.undo.2.remembered = d.remembered ∧ d.redo.2.remembered = d.remembered) ∧
    begun.undo.1 = .ok () ∧ ∃ r, begun.undo.2.remembered = some r ∧
      fresh (fun _ => true) (fun _ => true) begun.undo.2.val.config begun.undo.2.doc.text ≠ .ok r :=
  ⟨fun _ => ⟨rfl, rfl⟩, by decide +kernel, ⟨[⟨.warning, .noInfo⟩], true, 1, 0⟩, by decide +kernel, by decide +kernel⟩

/-- **C169, disagreement.** The same after a command that the client executes on the document itself. -/
theorem C169_raw_violated :
    (∀ (d : VDoc) p t, (d.rawInsert p t).2.remembered = d.remembered) ∧
    (begun.rawInsert 0 "[Script Info]\n".toList).1 = .ok () ∧ ∃ r, (begun.rawInsert 0 "[Script Info]\n".toList).2.remembered = some r ∧
      fresh (fun _ => true) (fun _ => true) VConfig.default (begun.rawInsert 0 "[Script Info]\n".toList).2.doc.text ≠ .ok r :=
  ⟨fun _ _ _ => rfl, by decide +kernel, ⟨[⟨.warning, .noInfo⟩], true, 1, 0⟩, by decide +kernel, by decide +kernel⟩

/-- **C169, disagreement.** The same after a replacement or a deletion by command that begins within the last character: it fails, but has
deleted that character. -/
theorem C169_failed_violated :
    let d : VDoc := ((VDoc.ofText ⟨50, 0, 100⟩ VConfig.default "é".toList).validate (fun _ => true) (fun _ => true) 0).2
    (d.replace ⟨1, 2⟩ []).1 = .err ∧ (d.execDelete ⟨1, 2⟩).1 = .err ∧ ∃ r,
      ((d.replace ⟨1, 2⟩ []).2.remembered = some r ∧ (d.execDelete ⟨1, 2⟩).2.remembered = some r) ∧
      fresh (fun _ => true) (fun _ => true) VConfig.default (d.replace ⟨1, 2⟩ []).2.doc.text ≠ .ok r ∧
      fresh (fun _ => true) (fun _ => true) VConfig.default (d.execDelete ⟨1, 2⟩).2.doc.text ≠ .ok r := by
  refine ⟨by decide +kernel, by decide +kernel, ⟨[⟨.warning, .noInfo⟩, ⟨.warning, .noEvents⟩], true, 2, 0⟩, ?_⟩
  decide +kernel

end Verif.Props.DocValid
