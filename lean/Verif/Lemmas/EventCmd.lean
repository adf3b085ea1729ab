import Verif.Model.EventCmd
import Verif.Spec.EventCmd
import Verif.Lemmas.Bytes
import Verif.Lemmas.Doc
import Verif.Lemmas.Str
import Verif.Lemmas.StrX
import Verif.Lemmas.Color
import Verif.Lemmas.SrtDoc
import Verif.Lemmas.ListX
import Verif.Lemmas.LineCol
/-! # Lemmas about the event commands -/
namespace Verif.EventCmd
open Verif Verif.Doc Verif.Pos
open Verif.Spec.EventCmd

/-! ## Recognising rows -/

theorem isEventLine_iff {l : Str} : isEventLine l = true ↔ IsEvent l := by
  unfold isEventLine startsWith IsEvent
  rw [Bool.or_eq_true, Option.isSome_iff_exists, Option.isSome_iff_exists]
  simp only [stripPrefix_iff]
  constructor
  · rintro (⟨t, h⟩ | ⟨t, h⟩)
    · exact ⟨t, Or.inl h⟩
    · exact ⟨t, Or.inr h⟩
  · rintro ⟨t, h | h⟩
    · exact Or.inl ⟨t, h⟩
    · exact Or.inr ⟨t, h⟩

theorem isEventLine_false {l : Str} : isEventLine l = false ↔ ¬ IsEvent l := by
  rw [← isEventLine_iff]; simp

theorem startsBracket_iff {l : Str} : startsWith "[".toList l = true ↔ l.head? = some '[' := by
  unfold startsWith
  rw [Option.isSome_iff_exists]
  simp only [stripPrefix_iff]
  cases l with
  | nil => simp
  | cons c cs => simp

/-! ## Finding the events -/

theorem first_of_lacks {p : Char} {ps a : Str} (h : Lacks (ps ++ [p]) (a ++ ps)) (b : Str) :
    splitOnceStr (ps ++ [p]) (a ++ (ps ++ [p]) ++ b) = some (a, b) := by
  apply splitOnceStr_first
  intro a' b' e
  by_cases hl : a.length ≤ a'.length
  · exact hl
  · exfalso
    have e1 : (a ++ (ps ++ [p]) ++ b).take (a'.length + (ps ++ [p]).length) = a' ++ (ps ++ [p]) := by
      rw [e, List.take_append_of_le_length (by simp), ← List.length_append, List.take_length]
    have hlen : a'.length + (ps ++ [p]).length ≤ (a ++ ps).length := by simp; omega
    have e2 : a ++ (ps ++ [p]) ++ b = (a ++ ps) ++ (p :: b) := by simp
    rw [e2, List.take_append_of_le_length hlen] at e1
    have e3 := List.take_append_drop (a'.length + (ps ++ [p]).length) (a ++ ps)
    rw [e1] at e3
    exact h a' _ e3.symm

theorem bodySplit_head {h : Str} (hh : Head h) (body : Str) : bodySplit (h ++ body) = some (h, body) := by
  obtain ⟨a, b, c, rfl, h1, h2, h3⟩ := hh
  unfold bodySplit
  have e1 : a ++ "[Events]".toList ++ b ++ "Format:".toList ++ c ++ ['\n'] ++ body =
      a ++ ("[Events".toList ++ [']']) ++ (b ++ "Format:".toList ++ c ++ ['\n'] ++ body) := by
    simp
  have e2 : "[Events]".toList ++ (b ++ "Format:".toList ++ c ++ ['\n'] ++ body) =
      ("[Events]".toList ++ b) ++ ("Format".toList ++ [':']) ++ (c ++ ['\n'] ++ body) := by
    simp
  have f1 := first_of_lacks (p := ']') (ps := "[Events".toList) (a := a) h1
    (b ++ "Format:".toList ++ c ++ ['\n'] ++ body)
  have f2 := first_of_lacks (p := ':') (ps := "Format".toList) (a := "[Events]".toList ++ b) h2
    (c ++ ['\n'] ++ body)
  rw [e1, show "[Events]".toList = "[Events".toList ++ [']'] from rfl, f1]
  simp only []
  rw [show "[Events".toList ++ [']'] = "[Events]".toList from rfl, e2,
    show "Format:".toList = "Format".toList ++ [':'] from rfl, f2]
  simp only []
  have e3 : "Format".toList ++ [':'] ++ (c ++ ['\n'] ++ body) = ("Format:".toList ++ c) ++ '\n' :: body := by
    simp
  rw [e3, splitOnce_append _ (by
    intro hm
    rcases List.mem_append.1 hm with hm | hm
    · revert hm; decide
    · exact h3 hm)]
  simp

/-! ## The loop -/

theorem takeWhile_row {r t : Str} (h : '\n' ∉ r) (ht : t = [] ∨ t.head? = some '\n') :
    (r ++ t).takeWhile (· ≠ '\n') = r := by
  induction r with
  | nil =>
    rcases ht with rfl | ht
    · rfl
    · cases t with
      | nil => rfl
      | cons c cs => simp at ht; subst ht; simp
  | cons c cs ih =>
    simp only [List.mem_cons, not_or] at h
    rw [List.cons_append, List.takeWhile_cons, if_pos (by simpa using fun e => h.1 e.symm), ih h.2]

theorem closes_iff {ag : Bool} {l : Str} : closes ag l = true ↔ l.head? = some '[' ∧ (ag = true → l ≠ "[Events]".toList) := by
  unfold closes
  rw [Bool.and_eq_true, startsBracket_iff]
  generalize "[Events]".toList = e
  cases ag <;> simp

theorem editLoop_mono {ag edit} (n : Nat) (d : Doc) (pos idx : Nat) (r : Outcome Unit × Doc)
    (h : editLoop ag edit n d pos idx = some r) : editLoop ag edit (n + 1) d pos idx = some r := by
  induction n generalizing d pos idx with
  | zero => simp [editLoop] at h
  | succ n ih =>
    rw [editLoop] at h ⊢
    by_cases h1 : pos < byteLen d.text
    · rw [if_pos h1] at h ⊢
      cases h2 : dropBytes d.text pos with
      | none => rw [h2] at h; exact h
      | some rest =>
        rw [h2] at h
        simp only at h ⊢
        by_cases h3 : rest.takeWhile (· ≠ '\n') = []
        · rw [if_pos h3] at h ⊢; exact h
        · rw [if_neg h3] at h ⊢
          by_cases h4 : isEventLine (rest.takeWhile (· ≠ '\n')) = true
          · rw [if_pos h4] at h ⊢
            cases h5 : edit idx (rest.takeWhile (· ≠ '\n')) with
            | panic => rw [h5] at h; exact h
            | err => rw [h5] at h; exact h
            | ok o =>
              cases o with
              | none => rw [h5] at h; exact ih _ _ _ h
              | some new =>
                rw [h5] at h
                simp only at h ⊢
                rcases h6 : d.replace ⟨pos, pos + byteLen (rest.takeWhile (· ≠ '\n'))⟩ new with ⟨o, d'⟩
                rw [h6] at h
                cases o with
                | ok _ => exact ih _ _ _ h
                | err => exact h
                | panic => exact h
          · rw [if_neg h4] at h ⊢
            by_cases h7 : closes ag (rest.takeWhile (· ≠ '\n')) = true
            · rw [if_pos h7] at h ⊢; exact h
            · rw [if_neg h7] at h ⊢; exact ih _ _ _ h
    · rw [if_neg h1] at h ⊢; exact h

theorem editLoop_le {ag edit} {n m : Nat} {d : Doc} {pos idx : Nat} {r : Outcome Unit × Doc} (hnm : n ≤ m)
    (h : editLoop ag edit n d pos idx = some r) : editLoop ag edit m d pos idx = some r := by
  induction hnm with
  | refl => exact h
  | step _ ih => exact editLoop_mono _ _ _ _ _ ih

/-- The loop finishes with `r`. -/
def Ends (ag : Bool) (edit : Nat → Str → Outcome (Option Str)) (d : Doc) (pos idx : Nat) (r : Outcome Unit × Doc) : Prop :=
  ∃ n, editLoop ag edit n d pos idx = some r

theorem Ends.unique {ag edit} {d : Doc} {pos idx : Nat} {r r' : Outcome Unit × Doc}
    (h : Ends ag edit d pos idx r) (h' : Ends ag edit d pos idx r') : r = r' := by
  obtain ⟨n, hn⟩ := h
  obtain ⟨m, hm⟩ := h'
  have a := editLoop_le (Nat.le_add_right n m) hn
  have b := editLoop_le (Nat.le_add_left m n) hm
  rw [a] at b; injection b

theorem ends_out {ag edit} {d : Doc} {pos idx : Nat} (h : byteLen d.text ≤ pos) : Ends ag edit d pos idx (.ok (), d) :=
  ⟨1, by rw [editLoop, if_neg (by omega)]⟩

/-- One step over a row. -/
theorem ends_other {ag edit} {d : Doc} {done row t : Str} {idx : Nat} {r}
    (hd : d.text = done ++ row ++ t) (hrow : Row row) (ht : t = [] ∨ t.head? = some '\n')
    (hev : ¬ IsEvent row) (h : Ends ag edit d (byteLen done + byteLen row + 1) idx r) :
    Ends ag edit d (byteLen done) idx r := by
  obtain ⟨n, hn⟩ := h
  refine ⟨n + 1, ?_⟩
  obtain ⟨h1, h2, h3⟩ := hrow
  have hpos := LineCol.byteLen_pos h2
  rw [editLoop, if_pos (by rw [hd]; simp only [byteLen_append]; omega), hd, List.append_assoc, dropBytes_append]
  simp only [takeWhile_row h1 ht]
  rw [if_neg h2, if_neg (by rw [isEventLine_iff]; exact hev), if_neg (by rw [closes_iff]; exact fun h => h3 h.1)]
  exact hn

theorem ends_keep {ag edit} {d : Doc} {done row t : Str} {idx : Nat} {r}
    (hd : d.text = done ++ row ++ t) (hrow : Row row) (ht : t = [] ∨ t.head? = some '\n')
    (hev : IsEvent row) (he : edit idx row = .ok none)
    (h : Ends ag edit d (byteLen done + byteLen row + 1) (idx + 1) r) :
    Ends ag edit d (byteLen done) idx r := by
  obtain ⟨n, hn⟩ := h
  refine ⟨n + 1, ?_⟩
  obtain ⟨h1, h2, h3⟩ := hrow
  have hpos := LineCol.byteLen_pos h2
  rw [editLoop, if_pos (by rw [hd]; simp only [byteLen_append]; omega), hd, List.append_assoc, dropBytes_append]
  simp only [takeWhile_row h1 ht]
  rw [if_neg h2, if_pos (isEventLine_iff.2 hev), he]
  exact hn

theorem ends_panic {ag edit} {d : Doc} {done row t : Str} {idx : Nat}
    (hd : d.text = done ++ row ++ t) (hrow : Row row) (ht : t = [] ∨ t.head? = some '\n')
    (hev : IsEvent row) (he : edit idx row = .panic) :
    Ends ag edit d (byteLen done) idx (.panic, d) := by
  refine ⟨1, ?_⟩
  obtain ⟨h1, h2, h3⟩ := hrow
  have hpos := LineCol.byteLen_pos h2
  rw [editLoop, if_pos (by rw [hd]; simp only [byteLen_append]; omega), hd, List.append_assoc, dropBytes_append]
  simp only [takeWhile_row h1 ht]
  rw [if_neg h2, if_pos (isEventLine_iff.2 hev), he]

theorem replace_at (d : Doc) {a m b : Str} (h : d.text = a ++ m ++ b) (n : Str) :
    ∃ d', d.replace ⟨byteLen a, byteLen a + byteLen m⟩ n = (.ok (), d') ∧ d'.text = a ++ n ++ b := by
  have e : d.replace ⟨byteLen a, byteLen a + byteLen m⟩ n = (.ok (),
      Doc.record { d with text := a ++ n ++ b } (.replace ⟨byteLen a, byteLen a + byteLen m⟩ m n) replaceDesc) := by
    simp only [Doc.replace, h, textRange_at, replaceRaw_at]
  exact ⟨_, e, rfl⟩

theorem delete_at (d : Doc) {a m b : Str} (h : d.text = a ++ m ++ b) :
    ∃ d', d.delete ⟨byteLen a, byteLen a + byteLen m⟩ = (.ok (), d') ∧ d'.text = a ++ b := by
  have e : d.delete ⟨byteLen a, byteLen a + byteLen m⟩ = (.ok (),
      Doc.record { d with text := a ++ b } (.delete ⟨byteLen a, byteLen a + byteLen m⟩ m) deleteDesc) := by
    simp only [Doc.delete, h, textRange_at, deleteRaw_at]
  exact ⟨_, e, rfl⟩

/-- A replaced row. -/
theorem ends_change {ag edit} {d : Doc} {done row t new : Str} {idx : Nat}
    (hd : d.text = done ++ row ++ t) (hrow : Row row) (ht : t = [] ∨ t.head? = some '\n')
    (hev : IsEvent row) (he : edit idx row = .ok (some new)) :
    ∃ d', d'.text = done ++ new ++ t ∧ ∀ r, Ends ag edit d' (byteLen done + byteLen row + 1) (idx + 1) r →
      Ends ag edit d (byteLen done) idx r := by
  obtain ⟨d', h1, h2⟩ := replace_at d hd new
  refine ⟨d', h2, ?_⟩
  rintro r ⟨n, hn⟩
  refine ⟨n + 1, ?_⟩
  obtain ⟨g1, g2, g3⟩ := hrow
  have hpos := LineCol.byteLen_pos g2
  rw [editLoop, if_pos (by rw [hd]; simp only [byteLen_append]; omega)]
  have hdrop : dropBytes d.text (byteLen done) = some (row ++ t) := by
    rw [hd, List.append_assoc, dropBytes_append]
  rw [hdrop]
  simp only [takeWhile_row g1 ht]
  rw [if_neg g2, if_pos (isEventLine_iff.2 hev), he]
  simp only
  rw [h1]
  exact hn

theorem ends_end {ag edit} {d : Doc} {done t : Str} {idx : Nat} (hd : d.text = done ++ t) (ht : End t)
    (hx : ag = true → t.takeWhile (· ≠ '\n') ≠ "[Events]".toList) :
    Ends ag edit d (byteLen done) idx (.ok (), d) := by
  rcases ht with rfl | ht | ht
  · exact ends_out (by rw [hd]; simp)
  · cases t with
    | nil => simp at ht
    | cons c cs =>
      simp at ht; subst ht
      refine ⟨1, ?_⟩
      have := utf8Size_pos '\n'
      rw [editLoop, if_pos (by rw [hd]; simp only [byteLen_append, byteLen_cons]; omega), hd, dropBytes_append]
      simp
  · cases t with
    | nil => simp at ht
    | cons c cs =>
      simp at ht; subst ht
      refine ⟨1, ?_⟩
      have := utf8Size_pos '['
      rw [editLoop, if_pos (by rw [hd]; simp only [byteLen_append, byteLen_cons]; omega), hd, dropBytes_append]
      have etw : ('[' :: cs).takeWhile (· ≠ '\n') = '[' :: cs.takeWhile (· ≠ '\n') := by
        rw [List.takeWhile_cons]; rfl
      simp only [etw]
      rw [if_neg (List.cons_ne_nil _ _), if_neg, if_pos]
      · rw [closes_iff, ← etw]; exact ⟨by rw [etw]; rfl, hx⟩
      · rw [isEventLine_iff]
        rintro ⟨t, h | h⟩ <;> simp at h

/-- If no event is to be changed any more, the loop ends without further changes. -/
theorem ends_quiet {ag edit} {d : Doc} (p q : Str) (idx : Nat) (hd : d.text = p ++ q)
    (hq : ∀ j, idx ≤ j → ∀ l, edit j l = .ok none) : Ends ag edit d (byteLen p) idx (.ok (), d) := by
  generalize hn : q.length = n
  induction n using Nat.strongRecOn generalizing p q idx with
  | ind n ih =>
    by_cases hlt : byteLen p < byteLen d.text
    · -- next line
      let line := q.takeWhile (· ≠ '\n')
      let rest := q.dropWhile (· ≠ '\n')
      have hqe : q = line ++ rest := (List.takeWhile_append_dropWhile).symm
      have step : ∀ idx', idx ≤ idx' → line ≠ [] → Ends ag edit d (byteLen p + byteLen line + 1) idx' (.ok (), d) := by
        intro idx' hi hl
        cases hr : rest with
        | nil =>
          apply ends_out
          rw [hd, hqe, hr]; simp
        | cons c cs =>
          have hc : c = '\n' := by
            have := List.head_dropWhile_not (fun c : Char => decide (c ≠ '\n')) (l := q) (w := by
              intro e; exact absurd (hr.symm.trans e) (by simp))
            have e2 : rest.head (by rw [hr]; simp) = c := by simp [hr]
            simp only [rest] at e2
            rw [e2] at this
            simpa using this
          subst hc
          have e3 : byteLen p + byteLen line + 1 = byteLen (p ++ line ++ ['\n']) := by
            simp only [byteLen_append]
            have : byteLen ['\n'] = 1 := by decide
            omega
          rw [e3]
          have hl2 : 0 < line.length := List.length_pos_iff.2 hl
          have hql : q.length = line.length + (cs.length + 1) := by rw [hqe, List.length_append, hr]; rfl
          exact ih cs.length (by omega) (p ++ line ++ ['\n']) cs idx'
            (by rw [hd, hqe, hr]; simp) (fun j hj => hq j (by omega)) rfl
      by_cases hl : line = []
      · refine ⟨1, ?_⟩
        rw [editLoop, if_pos hlt, hd, dropBytes_append]
        simp only
        rw [if_pos hl]
      · by_cases hev : isEventLine line = true
        · obtain ⟨n, hn⟩ := step (idx + 1) (by omega) hl
          refine ⟨n + 1, ?_⟩
          rw [editLoop, if_pos hlt]
          have hdrop : dropBytes d.text (byteLen p) = some q := by rw [hd, dropBytes_append]
          rw [hdrop]
          simp only
          rw [if_neg hl, if_pos hev, hq idx (Nat.le_refl _)]
          exact hn
        · by_cases hb : closes ag line = true
          · refine ⟨1, ?_⟩
            rw [editLoop, if_pos hlt]
            have hdrop : dropBytes d.text (byteLen p) = some q := by rw [hd, dropBytes_append]
            rw [hdrop]
            simp only
            rw [if_neg hl, if_neg hev, if_pos hb]
          · obtain ⟨n, hn⟩ := step idx (Nat.le_refl _) hl
            refine ⟨n + 1, ?_⟩
            rw [editLoop, if_pos hlt]
            have hdrop : dropBytes d.text (byteLen p) = some q := by rw [hd, dropBytes_append]
            rw [hdrop]
            simp only
            rw [if_neg hl, if_neg hev, if_neg hb]
            exact hn
    · exact ends_out (by omega)

theorem table_cons (r : Str) (rs : List Str) : table (r :: rs) = r ++ '\n' :: table rs := by
  simp [table]

theorem byteLen_snoc_nl (a r : Str) : byteLen (a ++ r ++ ['\n']) = byteLen a + byteLen r + 1 := by
  simp only [byteLen_append]
  have : byteLen ['\n'] = 1 := by decide
  omega

/-- Rows that are not to be changed are skipped. -/
theorem ends_skip {ag edit} {d : Doc} {rows : List Str} {k : Nat} (hc : Count rows k) :
    ∀ {done t : Str} {idx : Nat} {r}, d.text = done ++ table rows ++ t → (∀ r ∈ rows, Row r) →
    (∀ j, idx ≤ j → j < idx + k → ∀ l, edit j l = .ok none) →
    Ends ag edit d (byteLen (done ++ table rows)) (idx + k) r → Ends ag edit d (byteLen done) idx r := by
  induction hc with
  | nil => intro done t idx r hd hr hq h; simpa [table] using h
  | @event row rs n hev hc ih =>
    intro done t idx r hd hr hq h
    rw [table_cons] at hd h
    refine ends_keep (row := row) (t := '\n' :: table rs ++ t) (by rw [hd]; simp) (hr _ (by simp))
      (Or.inr rfl) hev (hq idx (by omega) (by omega) _) ?_
    rw [← byteLen_snoc_nl]
    refine ih (t := t) (by rw [hd]; simp) (fun r h => hr r (by simp [h])) (fun j h1 h2 => hq j (by omega) (by omega)) ?_
    simpa [Nat.add_assoc, Nat.add_comm, Nat.add_left_comm] using h
  | @other row rs n hev hc ih =>
    intro done t idx r hd hr hq h
    rw [table_cons] at hd h
    refine ends_other (row := row) (t := '\n' :: table rs ++ t) (by rw [hd]; simp) (hr _ (by simp))
      (Or.inr rfl) hev ?_
    rw [← byteLen_snoc_nl]
    refine ih (t := t) (by rw [hd]; simp) (fun r h => hr r (by simp [h])) hq ?_
    simpa using h

/-- All events are rewritten if the rewriting keeps their length. -/
theorem ends_each {ag edit} {R : Nat → Str → Str → Prop} {idx : Nat} {rows rows' : List Str} (h : Each R idx rows rows')
    (hR : ∀ j l l', R j l l' → byteLen l' = byteLen l ∧
      (edit j l = .ok (some l') ∨ (edit j l = .ok none ∧ l' = l))) :
    ∀ {d : Doc} {done t : Str}, d.text = done ++ table rows ++ t → (∀ r ∈ rows, Row r) → End t →
    (ag = true → t.takeWhile (· ≠ '\n') ≠ "[Events]".toList) →
    ∃ d', Ends ag edit d (byteLen done) idx (.ok (), d') ∧ d'.text = done ++ table rows' ++ t := by
  induction h with
  | nil =>
    intro d done t hd hr ht hx
    exact ⟨d, ends_end (by rw [hd]; simp [table]) ht hx, hd⟩
  | @event i row row' rs rs' hev hRr hrest ih =>
    intro d done t hd hr ht hx
    obtain ⟨hlen, he⟩ := hR _ _ _ hRr
    rw [table_cons] at hd
    have hd1 : d.text = done ++ row ++ ('\n' :: table rs ++ t) := by rw [hd]; simp
    rcases he with he | ⟨he, rfl⟩
    · obtain ⟨d1, hd1', hk⟩ := ends_change hd1 (hr _ (by simp)) (Or.inr rfl) hev he
      obtain ⟨d2, h1, h2⟩ := ih (d := d1) (done := done ++ row' ++ ['\n']) (t := t) (by rw [hd1']; simp)
        (fun r h => hr r (by simp [h])) ht hx
      refine ⟨d2, hk _ ?_, by rw [h2, table_cons]; simp⟩
      rw [← hlen, ← byteLen_snoc_nl]; exact h1
    · obtain ⟨d2, h1, h2⟩ := ih (d := d) (done := done ++ row' ++ ['\n']) (t := t) (by rw [hd1]; simp)
        (fun r h => hr r (by simp [h])) ht hx
      refine ⟨d2, ends_keep hd1 (hr _ (by simp)) (Or.inr rfl) hev he ?_, by rw [h2, table_cons]; simp⟩
      rw [← byteLen_snoc_nl]; exact h1
  | @other i row rs rs' hev hrest ih =>
    intro d done t hd hr ht hx
    rw [table_cons] at hd
    have hd1 : d.text = done ++ row ++ ('\n' :: table rs ++ t) := by rw [hd]; simp
    obtain ⟨d2, h1, h2⟩ := ih (d := d) (done := done ++ row ++ ['\n']) (t := t) (by rw [hd1]; simp)
      (fun r h => hr r (by simp [h])) ht hx
    refine ⟨d2, ends_other hd1 (hr _ (by simp)) (Or.inr rfl) hev ?_, by rw [h2, table_cons]; simp⟩
    rw [← byteLen_snoc_nl]; exact h1

/-- Exactly one event is rewritten. -/
theorem ends_one {ag edit} {d : Doc} {done row t new : Str} {rows : List Str} {k : Nat}
    (hd : d.text = done ++ table rows ++ row ++ t) (hrows : ∀ r ∈ rows, Row r) (hc : Count rows k)
    (hrow : Row row) (hev : IsEvent row) (ht : t = [] ∨ t.head? = some '\n')
    (he : edit k row = .ok (some new)) (hq : ∀ j, j ≠ k → ∀ l, edit j l = .ok none)
    (hb : byteLen new + byteLen t ≤ byteLen row + 1 ∨
      ∃ p q, new ++ t = p ++ q ∧ byteLen p = byteLen row + 1) :
    ∃ d', Ends ag edit d (byteLen done) 0 (.ok (), d') ∧ d'.text = done ++ table rows ++ new ++ t := by
  obtain ⟨d', h1, h2⟩ := ends_change (edit := edit) (idx := k) hd hrow ht hev he
  refine ⟨d', ?_, h1⟩
  refine ends_skip hc (t := row ++ t) (by rw [hd]; simp) hrows (fun j _ h l => hq j (by omega) l) ?_
  rw [Nat.zero_add]
  refine h2 _ ?_
  rcases hb with hb | ⟨p, q, e, hl⟩
  · apply ends_out
    rw [h1]; simp only [byteLen_append] at hb ⊢; omega
  · have e1 : byteLen (done ++ table rows) + byteLen row + 1 = byteLen (done ++ table rows ++ p) := by
      simp only [byteLen_append] at hl ⊢; omega
    rw [e1]
    refine ends_quiet _ q _ ?_ (fun j hj l => hq j (by omega) l)
    rw [h1, List.append_assoc _ new t, e]; simp

theorem editEvents_of_ends {edit} {d : Doc} {h body : Str} {r} (hh : Head h) (hd : d.text = h ++ body)
    (he : Ends false edit d (byteLen h) 0 r) : ∃ n, editEvents edit n d = some r := by
  obtain ⟨n, hn⟩ := he
  refine ⟨n, ?_⟩
  unfold editEvents
  rw [hd, bodySplit_head hh]
  exact hn

theorem editEvents_le {edit} {n m : Nat} {d : Doc} {r} (hnm : n ≤ m) (h : editEvents edit n d = some r) :
    editEvents edit m d = some r := by
  unfold editEvents at h ⊢
  cases hb : bodySplit d.text with
  | none => rw [hb] at h; exact h
  | some p => rw [hb] at h; exact editLoop_le hnm h

/-! ## Parsing and building event lines -/

theorem lastComma_append (t rest : Str) (d : Int)
    (h : ∀ a b, t = a ++ ',' :: b → d + a.count ')' - a.count '(' ≠ 0) :
    lastComma d (t ++ rest) = lastComma (d + t.count ')' - t.count '(') rest := by
  induction t generalizing d with
  | nil => simp
  | cons c t ih =>
    have hstep : ∀ d' : Int, d' = d + [c].count ')' - [c].count '(' →
        lastComma d' (t ++ rest) = lastComma (d + (c :: t).count ')' - (c :: t).count '(') rest := by
      intro d' hd'
      rw [ih]
      · congr 1
        rw [List.count_cons, List.count_cons, hd']
        simp only [List.count_singleton]
        omega
      · intro a b e
        have := h (c :: a) b (by rw [e]; rfl)
        rw [List.count_cons, List.count_cons] at this
        rw [hd']
        simp only [List.count_singleton]
        omega
    rw [List.cons_append, lastComma]
    by_cases h1 : c = ')'
    · subst h1; rw [if_pos rfl]; exact hstep _ (by simp)
    · rw [if_neg h1]
      by_cases h2 : c = '('
      · subst h2; rw [if_pos rfl]; exact hstep _ (by simp)
      · rw [if_neg h2]
        have hn : ¬ (c = ',' ∧ d = 0) := by
          rintro ⟨rfl, rfl⟩
          exact h [] t rfl (by simp)
        rw [if_neg hn]
        exact hstep _ (by simp [h1, h2])

theorem trimmed_trim {s : Str} (h : Trimmed s) : trim s = s := by
  apply Color.trim_of_edges
  · intro c hc; exact SrtDoc.not_white (h.1 c hc)
  · intro c hc; exact SrtDoc.not_white (h.2 c hc)

theorem effectText_safe {effect text : Str} (ha : ∀ c ∈ effect, c.toNat < 128) (he : Trimmed effect)
    (ht : Trimmed text) (hg : Guarded text) : effectText (effect ++ ',' :: text) = .ok (effect, text) := by
  have hlast : lastComma 0 (effect ++ ',' :: text).reverse = some effect.length := by
    rw [List.reverse_append, List.reverse_cons, List.append_assoc, lastComma_append]
    · have : (0 : Int) + text.reverse.count ')' - text.reverse.count '(' = 0 := by
        rw [List.count_reverse, List.count_reverse, hg.2]; omega
      rw [this]
      simp [lastComma]
    · intro a b e hz
      have e' : text = b.reverse ++ ',' :: a.reverse := by
        have := congrArg List.reverse e
        simpa using this
      have := hg.1 _ _ e'
      rw [List.count_reverse, List.count_reverse] at this
      omega
  have hb : byteLen effect = effect.length := by
    apply Color.byteLen_of_ascii
    intro c hc
    rw [utf8Size_eq, if_pos (ha c hc)]
  unfold effectText
  rw [hlast]
  simp only
  have h1 : takeBytes (effect ++ ',' :: text) effect.length = some effect := by
    rw [← hb, takeBytes_append]
  have h2 : dropBytes (effect ++ ',' :: text) (effect.length + 1) = some text := by
    have : effect ++ ',' :: text = (effect ++ [',']) ++ text := by simp
    rw [this, ← hb, show byteLen effect + 1 = byteLen (effect ++ [',']) by rw [byteLen_append]; rfl, dropBytes_append]
  rw [h1, h2]
  simp only [trimmed_trim he, trimmed_trim ht]

/-- The model's record for specification fields. -/
def toEv (f : Fields) : Ev := ⟨f.comment, f.layer, f.start, f.fin, f.style, f.name, f.ml, f.mr, f.mv, f.effect, f.text⟩

theorem build_toEv (f : Fields) : build (toEv f) = f.line := by
  unfold build Fields.line toEv
  cases f.comment <;> simp [joinStr, csv]

theorem splitn_cons {n : Nat} {a : Str} (b : Str) (h : ',' ∉ a) :
    splitn ',' (n + 2) (a ++ ',' :: b) = a :: splitn ',' (n + 1) b := by
  rw [splitn, splitOnce_append _ h]

theorem head_csv {f : Fields} (h : f.Safe) : ∀ c,
    (csv [f.layer, f.start, f.fin, f.style, f.name, f.ml, f.mr, f.mv, f.effect, f.text]).head? = some c → ¬ White c := by
  intro c hc
  have hp := h.plain f.layer (by simp)
  rw [csv] at hc
  cases hl : f.layer with
  | nil =>
    rw [hl] at hc; simp at hc; subst hc; unfold White; decide
  | cons x xs =>
    rw [hl] at hc; simp at hc; subst hc
    exact hp.2.1 x (by rw [hl]; rfl)

theorem last_csv {f : Fields} (h : f.Safe) : ∀ c,
    (csv [f.layer, f.start, f.fin, f.style, f.name, f.ml, f.mr, f.mv, f.effect, f.text]).getLast? = some c → ¬ White c := by
  intro c hc
  have e : csv [f.layer, f.start, f.fin, f.style, f.name, f.ml, f.mr, f.mv, f.effect, f.text] =
      (csv [f.layer, f.start, f.fin, f.style, f.name, f.ml, f.mr, f.mv, f.effect] ++ [',']) ++ f.text := by
    simp [csv]
  rw [e] at hc
  cases ht : f.text.getLast? with
  | none =>
    have : f.text = [] := by simpa using ht
    rw [this, List.append_nil] at hc
    simp at hc; subst hc; unfold White; decide
  | some x =>
    rw [List.getLast?_append, ht] at hc
    simp at hc; subst hc
    exact h.text.2 x ht

theorem parse_safe {f : Fields} (h : f.Safe) : parseEventLine f.line = .ok (toEv f) := by
  have hcsv : trim (' ' :: csv [f.layer, f.start, f.fin, f.style, f.name, f.ml, f.mr, f.mv, f.effect, f.text]) =
      csv [f.layer, f.start, f.fin, f.style, f.name, f.ml, f.mr, f.mv, f.effect, f.text] := by
    have := Color.trim_pad (w1 := [' ']) (w2 := [])
      (s := csv [f.layer, f.start, f.fin, f.style, f.name, f.ml, f.mr, f.mv, f.effect, f.text]) (by decide) (by simp) (by simp [csv])
      (fun c hc => SrtDoc.not_white (head_csv h c hc)) (fun c hc => SrtDoc.not_white (last_csv h c hc))
    simpa using this
  have hpf : parseFields f.comment
      (csv [f.layer, f.start, f.fin, f.style, f.name, f.ml, f.mr, f.mv, f.effect, f.text]) = .ok (toEv f) := by
    have hp := h.plain
    simp only [List.mem_cons, List.not_mem_nil, or_false, forall_eq_or_imp, forall_eq] at hp
    obtain ⟨p1, p2, p3, p4, p5, p6, p7, p8, p9⟩ := hp
    have hs : splitn ',' 10 (csv [f.layer, f.start, f.fin, f.style, f.name, f.ml, f.mr, f.mv, f.effect, f.text]) =
        [f.layer, f.start, f.fin, f.style, f.name, f.ml, f.mr, f.mv, f.effect, f.text] := by
      simp only [csv]
      rw [splitn_cons _ p1.1, splitn_cons _ p2.1, splitn_cons _ p3.1, splitn_cons _ p4.1, splitn_cons _ p5.1,
        splitn_cons _ p6.1, splitn_cons _ p7.1, splitn_cons _ p8.1, splitn_cons _ p9.1, splitn]
    unfold parseFields
    rw [hs]
    simp only [effectText_safe h.ascii p9.2 h.text h.guarded, trimmed_trim p1.2, trimmed_trim p2.2,
      trimmed_trim p3.2, trimmed_trim p4.2, trimmed_trim p5.2, trimmed_trim p6.2, trimmed_trim p7.2,
      trimmed_trim p8.2, toEv]
  unfold parseEventLine
  cases hc : f.comment with
  | true =>
    have e : f.line = "Comment".toList ++ ':' ::
        (' ' :: csv [f.layer, f.start, f.fin, f.style, f.name, f.ml, f.mr, f.mv, f.effect, f.text]) := by
      unfold Fields.line; rw [hc]; rfl
    rw [e, splitOnce_append _ (by decide)]
    simp only
    rw [show eventKind "Comment".toList = some true from rfl]
    simp only
    rw [hcsv, ← hc, hpf]
  | false =>
    have e : f.line = "Dialogue".toList ++ ':' ::
        (' ' :: csv [f.layer, f.start, f.fin, f.style, f.name, f.ml, f.mr, f.mv, f.effect, f.text]) := by
      unfold Fields.line; rw [hc]; rfl
    rw [e, splitOnce_append _ (by decide)]
    simp only
    rw [show eventKind "Dialogue".toList = some false from rfl]
    simp only
    rw [hcsv, ← hc, hpf]

theorem line_isEvent (f : Fields) : IsEvent f.line := by
  unfold Fields.line
  cases f.comment
  · exact ⟨' ' :: csv _, Or.inl rfl⟩
  · exact ⟨' ' :: csv _, Or.inr rfl⟩

/-! ## Deleting, merging and splitting -/

theorem rowsNl_row {r : Str} (h : '\n' ∉ r) (t : Str) : rowsNl (r ++ '\n' :: t) = (r ++ ['\n']) :: rowsNl t := by
  induction r with
  | nil => simp [rowsNl]
  | cons c cs ih =>
    simp only [List.mem_cons, not_or] at h
    rw [List.cons_append, rowsNl, if_neg (fun e => h.1 e.symm), ih h.2]
    rfl

theorem bare_row (r : Str) : bare (r ++ ['\n']) = some r := by
  unfold bare
  rw [List.getLast?_concat]
  simp only
  rw [if_pos (by decide), List.dropLast_concat]

theorem byteLen_row (r : Str) : byteLen (r ++ ['\n']) = byteLen r + 1 := by
  rw [byteLen_append]; rfl

theorem findEvent_skip {k n : Nat} {rows : List Str} (hc : Count rows n) :
    ∀ {t : Str} {pos idx : Nat}, (∀ r ∈ rows, '\n' ∉ r) → idx + n ≤ k →
    findEvent k (rowsNl (table rows ++ t)) pos idx =
      findEvent k (rowsNl t) (pos + byteLen (table rows)) (idx + n) := by
  induction hc with
  | nil => intros; simp [table]
  | @event r rs n hev hc ih =>
    intro t pos idx hr hk
    rw [table_cons, List.append_assoc, List.cons_append, rowsNl_row (hr _ (by simp)), findEvent, bare_row]
    simp only
    rw [if_pos (isEventLine_iff.2 hev), if_neg (by omega), ih (fun r h => hr r (by simp [h])) (by omega), byteLen_row]
    congr 1
    · simp only [byteLen_append, byteLen_cons]
      have : '\n'.utf8Size = 1 := by decide
      omega
    · omega
  | @other r rs n hev hc ih =>
    intro t pos idx hr hk
    rw [table_cons, List.append_assoc, List.cons_append, rowsNl_row (hr _ (by simp)), findEvent, bare_row]
    simp only
    rw [if_neg (by rw [isEventLine_iff]; exact hev), ih (fun r h => hr r (by simp [h])) (by omega), byteLen_row]
    congr 1
    simp only [byteLen_append, byteLen_cons]
    have : '\n'.utf8Size = 1 := by decide
    omega

theorem deleteRanges_append (a b : List Range) (d d' : Doc) (h : deleteRanges a d = (.ok (), d')) :
    deleteRanges (a ++ b) d = deleteRanges b d' := by
  induction a generalizing d with
  | nil => simp [deleteRanges] at h; rw [h]; rfl
  | cons r rs ih =>
    rw [deleteRanges] at h
    rw [List.cons_append, deleteRanges]
    rcases hd : d.delete r with ⟨o, d1⟩
    rw [hd] at h
    cases o with
    | ok _ => exact ih _ h
    | err => simp at h
    | panic => simp at h

theorem allEvents_delete {is : List Nat} {idx : Nat} {rows rows' : List Str} (h : Without is idx rows rows') :
    ∀ {done : Str}, (∀ r ∈ rows, '\n' ∉ r) → ∃ es, allEvents (rowsNl (table rows)) (byteLen done) idx = .ok es ∧
      ∀ (d : Doc) (t : Str), d.text = done ++ table rows ++ t →
        ∃ d', deleteRanges ((es.reverse.filter (fun e => is.contains e.1)).map (·.2)) d = (.ok (), d') ∧
          d'.text = done ++ table rows' ++ t := by
  induction h with
  | nil =>
    intro done hr
    refine ⟨[], rfl, ?_⟩
    intro d t hd
    exact ⟨d, rfl, hd⟩
  | @drop i r rs rs' hev hi hrest ih =>
    intro done hr
    obtain ⟨es, h1, h2⟩ := ih (done := done ++ r ++ ['\n']) (fun r h => hr r (by simp [h]))
    rw [byteLen_snoc_nl, Nat.add_assoc, ← byteLen_row] at h1
    refine ⟨(i, ⟨byteLen done, byteLen done + byteLen (r ++ ['\n'])⟩) :: es, ?_, ?_⟩
    · rw [table_cons, rowsNl_row (hr _ (by simp)), allEvents, bare_row]
      simp only
      rw [if_pos (isEventLine_iff.2 hev), h1]
    · intro d t hd
      obtain ⟨d1, g1, g2⟩ := h2 d t (by rw [hd, table_cons]; simp)
      obtain ⟨d2, k1, k2⟩ := delete_at d1 (a := done) (m := r ++ ['\n']) (b := table rs' ++ t) (by rw [g2]; simp)
      refine ⟨d2, ?_, by rw [k2]; simp⟩
      rw [List.reverse_cons, List.filter_append, List.map_append, deleteRanges_append _ _ _ _ g1]
      have : is.contains i = true := by simpa using hi
      simp only [List.filter_cons, this, if_true, List.filter_nil, List.map_cons, List.map_nil, deleteRanges, k1]
  | @keep i r rs rs' hev hi hrest ih =>
    intro done hr
    obtain ⟨es, h1, h2⟩ := ih (done := done ++ r ++ ['\n']) (fun r h => hr r (by simp [h]))
    rw [byteLen_snoc_nl, Nat.add_assoc, ← byteLen_row] at h1
    refine ⟨(i, ⟨byteLen done, byteLen done + byteLen (r ++ ['\n'])⟩) :: es, ?_, ?_⟩
    · rw [table_cons, rowsNl_row (hr _ (by simp)), allEvents, bare_row]
      simp only
      rw [if_pos (isEventLine_iff.2 hev), h1]
    · intro d t hd
      obtain ⟨d1, g1, g2⟩ := h2 d t (by rw [hd, table_cons]; simp)
      refine ⟨d1, ?_, by rw [g2, table_cons]; simp⟩
      have : is.contains i = false := by simpa using hi
      rw [List.reverse_cons, List.filter_append, List.map_append, deleteRanges_append _ _ _ _ g1]
      simp only [List.filter_cons, this, List.filter_nil, List.map_nil, deleteRanges, if_false, Bool.false_eq_true]
  | @other i r rs rs' hev hrest ih =>
    intro done hr
    obtain ⟨es, h1, h2⟩ := ih (done := done ++ r ++ ['\n']) (fun r h => hr r (by simp [h]))
    rw [byteLen_snoc_nl, Nat.add_assoc, ← byteLen_row] at h1
    refine ⟨es, ?_, ?_⟩
    · rw [table_cons, rowsNl_row (hr _ (by simp)), allEvents, bare_row]
      simp only
      rw [if_neg (by rw [isEventLine_iff]; exact hev), h1]
    · intro d t hd
      obtain ⟨d1, g1, g2⟩ := h2 d t (by rw [hd, table_cons]; simp)
      exact ⟨d1, g1, by rw [g2, table_cons]; simp⟩

theorem eventsIn_skip {n : Nat} {rows : List Str} (hc : Count rows n) :
    ∀ {t : Str} {pos : Nat}, (∀ r ∈ rows, Row r) → ∃ es, es.length = n ∧
      eventsIn (splitOn '\n' (table rows ++ t)) pos = es ++ eventsIn (splitOn '\n' t) (pos + byteLen (table rows)) := by
  induction hc with
  | nil => intro t pos hr; exact ⟨[], rfl, by simp [table]⟩
  | @event r rs n hev hc ih =>
    intro t pos hr
    obtain ⟨g1, g2, g3⟩ := hr r (by simp)
    obtain ⟨es, h1, h2⟩ := ih (t := t) (pos := pos + byteLen r + 1) (fun r h => hr r (by simp [h]))
    refine ⟨(pos, r) :: es, by simp [h1], ?_⟩
    rw [table_cons, List.append_assoc, List.cons_append, splitOn_append_sep _ g1, eventsIn, if_neg g2,
      if_pos (isEventLine_iff.2 hev), h2]
    rw [show pos + byteLen (r ++ '\n' :: table rs) = pos + byteLen r + 1 + byteLen (table rs) by
      simp only [byteLen_append, byteLen_cons]
      have : '\n'.utf8Size = 1 := by decide
      omega]
    rfl
  | @other r rs n hev hc ih =>
    intro t pos hr
    obtain ⟨g1, g2, g3⟩ := hr r (by simp)
    obtain ⟨es, h1, h2⟩ := ih (t := t) (pos := pos + byteLen r + 1) (fun r h => hr r (by simp [h]))
    refine ⟨es, h1, ?_⟩
    rw [table_cons, List.append_assoc, List.cons_append, splitOn_append_sep _ g1, eventsIn, if_neg g2,
      if_neg (by rw [isEventLine_iff]; exact hev), if_neg (by rw [startsBracket_iff]; exact g3), h2]
    rw [show pos + byteLen (r ++ '\n' :: table rs) = pos + byteLen r + 1 + byteLen (table rs) by
      simp only [byteLen_append, byteLen_cons]
      have : '\n'.utf8Size = 1 := by decide
      omega]

theorem eventsIn_here {r t : Str} (hr : Row r) (hev : IsEvent r) (ht : t = [] ∨ t.head? = some '\n') (pos : Nat) :
    ∃ es, eventsIn (splitOn '\n' (r ++ t)) pos = (pos, r) :: es ∧
      (∀ t', t = '\n' :: t' → es = eventsIn (splitOn '\n' t') (pos + byteLen r + 1)) := by
  obtain ⟨g1, g2, g3⟩ := hr
  cases t with
  | nil =>
    refine ⟨[], ?_, by simp⟩
    rw [List.append_nil, splitOn_of_not_mem g1, eventsIn, if_neg g2, if_pos (isEventLine_iff.2 hev), eventsIn]
  | cons c t' =>
    have : c = '\n' := by simpa using ht
    subst this
    refine ⟨eventsIn (splitOn '\n' t') (pos + byteLen r + 1), ?_, by simp⟩
    rw [splitOn_append_sep _ g1, eventsIn, if_neg g2, if_pos (isEventLine_iff.2 hev)]

/-- The event after `rows` has index `k`. -/
theorem eventsIn_at {rows : List Str} {k : Nat} (hc : Count rows k) (hrows : ∀ r ∈ rows, Row r) {r t : Str}
    (hr : Row r) (hev : IsEvent r) (ht : t = [] ∨ t.head? = some '\n') (pos : Nat) :
    (eventsIn (splitOn '\n' (table rows ++ (r ++ t))) pos)[k]? = some (pos + byteLen (table rows), r) := by
  obtain ⟨es, h1, h2⟩ := eventsIn_skip hc (t := r ++ t) (pos := pos) hrows
  obtain ⟨es', h3, _⟩ := eventsIn_here hr hev ht (pos + byteLen (table rows))
  rw [h2, h3, List.getElem?_append_right (by omega), h1]
  simp

theorem count_append {a b : List Str} {m n : Nat} (ha : Count a m) (hb : Count b n) : Count (a ++ b) (m + n) := by
  induction ha with
  | nil => simpa using hb
  | event h _ ih => rw [List.cons_append]; have := Count.event h ih; rwa [show ∀ x, x + 1 + n = x + n + 1 by omega]
  | other h _ ih => exact Count.other h ih

theorem table_append (a b : List Str) : table (a ++ b) = table a ++ table b := by simp [table]

end Verif.EventCmd
