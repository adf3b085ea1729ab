import Verif.Lemmas.IncEdit
import Verif.Props.Incremental
import Verif.Props.Update
/-!
# C118: incremental edits of a document
-/
namespace Verif.Props
open Verif
open Verif.Pos
open Verif.Doc
open Verif.Update (Kind)
open Verif.Parser (Script Section parse parse_total)
open Verif.DeltaApply (Delta)
open Verif.IncEdit
open Verif.Spec.Script (size Line)
open Verif.Spec.Incremental (feeds source Clean Touched)
open Verif.Spec.Update (kindOf says)
open Verif.Spec.DocEdit (FirstAt)
open Verif.Spec.IncEdit

theorem edit_short (dbg : Section → Str) (d : IDoc) {a m : Str} {new : Str} (h : Short m new) :
    edit dbg d (place a m) new = fastPath d (place a m) new := by
  unfold edit
  rw [if_pos ((simple_iff a m new).2 h)]

theorem edit_long (dbg : Section → Str) (d : IDoc) {a m : Str} {new : Str} (h : ¬ Short m new) :
    edit dbg d (place a m) new = longPath dbg d (place a m) new := by
  unfold edit
  rw [if_neg (fun hs => h ((simple_iff a m new).1 hs))]

/-- A text of 101 letters, which is not short. -/
def hundred : Str := List.replicate 101 'b'

theorem hundred_long (m : Str) : ¬ Short m hundred := by
  rintro ⟨h, _⟩
  revert h
  decide

/-- **C118 (text).** An incremental edit of whole characters puts the new text in the place of the old and leaves the rest alone, whatever the
document, its history and the state of its parser; but if the edit is not short and the text kept by the parser cannot be cut at its ends, it
panics and the text stays. -/
theorem C118_text (dbg : Section → Str) (d : IDoc) {a m b : Str} (new : Str) (h : d.text = a ++ m ++ b) :
    (Short m new ∨ ¬ Unfit d a m → ∃ δ, (edit dbg d (place a m) new).1 = .ok δ ∧ (edit dbg d (place a m) new).2.text = a ++ new ++ b) ∧
    (¬ Short m new → Unfit d a m → (edit dbg d (place a m) new).1 = .panic ∧ (edit dbg d (place a m) new).2.text = d.text) := by
  obtain ⟨h1, h2⟩ := report_at dbg d.cache a m b new
  rw [← h] at h1 h2
  constructor
  · intro hc
    by_cases hs : Short m new
    · rw [edit_short dbg d hs, fast_at d new h]
      exact ⟨_, rfl, rfl⟩
    · rw [edit_long dbg d hs, long_at dbg d new h]
      have hc : ¬ Unfit d a m := hc.resolve_left hs
      obtain ⟨δ, c, e⟩ := h2 hc
      rw [e]
      exact ⟨δ, rfl, rfl⟩
  · rintro hs ⟨x, hx, hb, hn⟩
    rw [edit_long dbg d hs, long_at dbg d new h, h1 x hx hb hn]
    exact ⟨rfl, rfl⟩

example : Short "a".toList "bc".toList ∧ ¬ Unfit (IDoc.fromContent "[Events]\n".toList) "[Events]".toList "\n".toList := by
  refine ⟨by unfold Short; decide, ?_⟩
  rintro ⟨c, h, _, hn⟩
  cases h
  exact hn (cut_at "[Events]".toList "\n".toList [])

/-- **C118 (insertion and deletion).** Inserting puts the text at the position, deleting takes the range away. -/
theorem C118_insert_delete (dbg : Section → Str) (d : IDoc) {a m b : Str} (new : Str) (h : d.text = a ++ m ++ b) (hi : InStep d) :
    (∃ δ, (insertInc dbg d (size a) new).1 = .ok δ ∧ (insertInc dbg d (size a) new).2.text = a ++ new ++ m ++ b) ∧
    ∃ δ, (deleteInc dbg d (place a m)).1 = .ok δ ∧ (deleteInc dbg d (place a m)).2.text = a ++ b := by
  have hu : ∀ x y z : Str, d.text = x ++ y ++ z → ¬ Unfit d x y := by
    rintro x y z hxyz ⟨c, hc, _, hn⟩
    rw [hi.1] at hc
    cases hc
    rw [hxyz] at hn
    exact hn (cut_at x y z)
  constructor
  · have h' : d.text = a ++ [] ++ (m ++ b) := by rw [h]; simp
    have := (C118_text dbg d new h').1 (.inr (hu _ _ _ h'))
    have e : insertInc dbg d (size a) new = edit dbg d (place a []) new := by
      unfold insertInc
      congr 1
      show (if size a ≤ size a then (⟨size a, size a⟩ : Range) else ⟨size a, size a⟩) = _
      rw [if_pos (Nat.le_refl _)]
      rfl
    rw [e]
    simpa using this
  · have := (C118_text dbg d [] h).1 (.inr (hu _ _ _ h))
    rw [List.append_nil] at this
    exact this

/-- **C118 (refused).** A range that ends beyond the text is refused by both calls, and the document is as before. -/
theorem C118_refused (dbg : Section → Str) (d : IDoc) (r : Range) (new : Str) (h : size d.text < r.fin) :
    edit dbg d r new = (.err, d) ∧ editSafe dbg d r new = (.err, d) := by
  have ht : textRange d.text r = .err := by
    unfold textRange
    exact if_pos h
  have hr : d.replace r new = (.err, d) := by
    unfold IDoc.replace
    rw [ht]
  have hb : boundary d.text r.fin = false := by
    cases hb : boundary d.text r.fin with
    | false => rfl
    | true =>
      obtain ⟨p, q, h1, h2⟩ := cut_bound.1 hb
      have : size d.text = size p + size q := by rw [h1]; exact byteLen_append p q
      omega
  have he : edit dbg d r new = (.err, d) := by
    unfold edit
    split
    · unfold fastPath
      rw [if_pos (by simp [hb])]
      unfold fallback
      rw [hr]
    · unfold longPath
      rw [ht]
  refine ⟨he, ?_⟩
  unfold editSafe
  rw [he]
  exact hr

example : size (IDoc.fromContent "[Events]\n".toList).text < (⟨3, 10⟩ : Range).fin := by decide

/-- **C118 (safe).** The call that falls back on plain replacement gives the same text at whole characters. -/
theorem C118_safe (dbg : Section → Str) (d : IDoc) {a m b : Str} (new : Str) (h : d.text = a ++ m ++ b) (hc : Short m new ∨ ¬ Unfit d a m) :
    (editSafe dbg d (place a m) new).1 = .ok () ∧ (editSafe dbg d (place a m) new).2 = (edit dbg d (place a m) new).2 ∧
    (editSafe dbg d (place a m) new).2.text = a ++ new ++ b := by
  obtain ⟨δ, h1, h2⟩ := (C118_text dbg d new h).1 hc
  unfold editSafe
  cases he : edit dbg d (place a m) new with
  | mk o d' =>
    rw [he] at h1 h2
    dsimp only at h1 h2
    subst h1
    exact ⟨rfl, rfl, h2⟩

/-- **C118 (event).** Editing an event by its text replaces the first occurrence, and is refused if there is none. -/
theorem C118_event (dbg : Section → Str) (d : IDoc) (old new : Str) :
    ((∀ a b, d.text ≠ a ++ old ++ b) → editEvent dbg d old new = (.err, d)) ∧
    ∀ a, FirstAt old d.text a → editEvent dbg d old new = edit dbg d (place a old) new := by
  constructor
  · intro h
    unfold editEvent
    rw [splitOnceStr_none.2 h]
  · intro a h
    obtain ⟨b, h1, _⟩ := DocEdit.find_first h
    unfold editEvent
    rw [h1]
    dsimp only
    congr 1
    show (if byteLen a ≤ byteLen a + byteLen old then _ else _) = _
    rw [if_pos (by omega)]
    rfl

/-! ## The parser -/

/-- **C118 (session), partial.** After any number of long edits of a document opened from a text, that together change the length by less than the
threshold of the parser, the text the parser keeps is the text of the document, so that no edit panics.

Missing: short edits, which leave the parser behind (see below), and longer sessions. -/
theorem C118_session_partial (dbg : Section → Str) {s : Str} {n : Nat} {d : IDoc} (h : Pasted dbg (IDoc.fromContent s) n d) (hn : n < 10000) :
    d.cache.cached = some d.text ∧ d.cache.bytes = n ∧ d.cache.threshold = 10000 := by
  generalize hd : IDoc.fromContent s = d0 at h
  induction h with
  | nil => subst hd; exact ⟨rfl, rfl, rfl⟩
  | @snoc d' n a m b new _ ht hs ih =>
    obtain ⟨h1, h2, h3⟩ := ih (by omega)
    obtain ⟨sc, hsc⟩ := parse_total (src := d'.text)
    obtain ⟨δ, _, e⟩ := long_step dbg d' new ht ⟨h1, by omega⟩ hsc
    rw [edit_long dbg d' hs, e]
    exact ⟨rfl, by rw [h2], h3⟩

example : Pasted (fun _ => []) (IDoc.fromContent "[Events]\n".toList) (0 + change [] hundred)
    (edit (fun _ => []) (IDoc.fromContent "[Events]\n".toList) (place "[Events]\n".toList []) hundred).2 :=
  .snoc (b := []) (.nil _) (by decide) (hundred_long _)

/-- **C118 (report), partial.** In step, a long edit that changes lines of sections (see C90), with no section twice, reports the sections that say
something else afterwards, and only them, and none added or removed.
Missing: short edits and edits out of step, after which the reports are wrong (`C118_first_violated`, `C118_second_violated`), and
sections that occur twice. -/
theorem C118_report_partial (dbg : Section → Str) {first first' : List Line} {parts parts' : List (Kind × List Line)} {s : Script} {d : IDoc}
    {a m b new : Str} (hk : (parts.map (·.1)).Nodup) (hk' : parts'.map (·.1) = parts.map (·.1))
    (hf : ∀ l ∈ first, Clean l) (hf' : ∀ l ∈ first', Clean l)
    (hp : ∀ p ∈ parts, ∀ l ∈ p.2, Clean l) (hp' : ∀ p ∈ parts', ∀ l ∈ p.2, Clean l)
    (hb : (source first parts).head? ≠ some (Char.ofNat 0xFEFF)) (hb' : (source first' parts').head? ≠ some (Char.ofNat 0xFEFF))
    (hs : size (source first parts) ≤ 50 * 1024 * 1024) (hs' : size (source first' parts') ≤ 50 * 1024 * 1024)
    (hd : d.text = source first parts) (ht : d.text = a ++ m ++ b) (hn : a ++ new ++ b = source first' parts') (hi : InStep d)
    (hl : ¬ Short m new) (ho : parse d.text = some s)
    (hto : ∀ q ∈ parts.zip parts', q.1.2 ≠ q.2.2 → ∃ sec ∈ s.sections, kindOf sec = q.1.1 ∧ Touched ⟨size a, size a + size m, new⟩ sec) :
    ∃ δ t, (edit dbg d (place a m) new).1 = .ok δ ∧ parse (edit dbg d (place a m) new).2.text = some t ∧ δ.added = [] ∧ δ.removed = [] ∧
      ∀ i, (∃ x, (i, x) ∈ δ.modified) ↔ ∃ u v, s.sections[i]? = some u ∧ t.sections[i]? = some v ∧ says u ≠ says v := by
  obtain ⟨t, h1, h2⟩ := C90_contents_partial hk hk' hf hf' hp hp' hb hb' hs hs' (hd ▸ ho) hto
  obtain ⟨δ, hδ, e⟩ := long_step dbg d new ht hi ho
  rw [edit_long dbg d hl, e]
  refine ⟨δ, t, rfl, by rw [hn]; exact h1, ?_⟩
  rw [hn] at hδ
  generalize hw : Incremental.parseIncremental s (source first' parts') ⟨size a, size a + size m, new⟩ = w at hδ h2
  obtain ⟨s0, g1, g2⟩ := Incremental.parse_source hf hp hb hs
  rw [← hd, ho] at g1
  cases g1
  obtain ⟨t0, g3, g4⟩ := Incremental.parse_source hf' hp' hb' hs'
  rw [h1] at g3
  cases g3
  have kinds : ∀ {l : List Section} {ps : List (Kind × List Line)}, l.map says = ps.map (fun p => Incremental.cont p.1 p.2) →
      l.map kindOf = ps.map (·.1) := by
    intro l
    induction l with
    | nil => intro ps h; cases ps with | nil => rfl | cons => simp at h
    | cons x l ih => intro ps h; cases ps with
      | nil => simp at h
      | cons p ps =>
        simp only [List.map_cons, List.cons.injEq] at h
        rw [List.map_cons, List.map_cons, ih h.2, Incremental.kindOf_cont h.1]
  have hks := kinds g2
  have hkw := kinds (h2.trans g4)
  have hd' := deltaOld_same (pre := []) (old := s.sections) (new := w.sections) (by rw [hks, hkw, hk']) (by
    rw [List.nil_append, hkw, hk']; exact hk) 0
  rw [List.nil_append] at hd'
  have hadd : δ.added = [] := by
    rw [hδ]
    show (w.sections.filter _).map dbg = []
    rw [List.filter_eq_nil_iff.2, List.map_nil]
    intro v hv
    have : kindOf v ∈ s.sections.map kindOf := by rw [hks, ← hk', ← hkw]; exact List.mem_map_of_mem hv
    obtain ⟨u, hu, huv⟩ := List.mem_map.1 this
    simp only [Bool.not_eq_true', Bool.not_eq_false, List.any_eq_true, decide_eq_true_eq]
    exact ⟨u, hu, by rw [Update.kind_eq, Update.kind_eq, huv]⟩
  have hrem : δ.removed = [] := by rw [hδ]; exact hd'.1
  refine ⟨hadd, hrem, fun i => ?_⟩
  have hsay : ∀ (i : Nat) (x : Section), w.sections[i]? = some x → ∃ v, t.sections[i]? = some v ∧ says v = says x := by
    intro i x hx
    have : (t.sections.map says)[i]? = some (says x) := by rw [← h2, List.getElem?_map, hx]; rfl
    rw [List.getElem?_map] at this
    cases hv : t.sections[i]? with
    | none => rw [hv] at this; cases this
    | some v => rw [hv] at this; exact ⟨v, rfl, Option.some.inj this⟩
  have hsay' : ∀ (i : Nat) (v : Section), t.sections[i]? = some v → ∃ x, w.sections[i]? = some x ∧ says v = says x := by
    intro i v hv
    have : (w.sections.map says)[i]? = some (says v) := by rw [h2, List.getElem?_map, hv]; rfl
    rw [List.getElem?_map] at this
    cases hx : w.sections[i]? with
    | none => rw [hx] at this; cases this
    | some x => rw [hx] at this; exact ⟨x, rfl, (Option.some.inj this).symm⟩
  have hm : (∃ x, (i, x) ∈ δ.modified) ↔ ∃ x, (i, x) ∈ (Update.deltaOld w.sections 0 s.sections).1 := by
    rw [hδ]
    constructor
    · rintro ⟨x, hx⟩
      obtain ⟨⟨j, y⟩, hy, e⟩ := List.mem_map.1 hx
      cases e
      exact ⟨y, hy⟩
    · rintro ⟨y, hy⟩
      exact ⟨dbg y, List.mem_map.2 ⟨_, hy, rfl⟩⟩
  rw [hm, hd'.2 i]
  constructor
  · rintro ⟨j, u, x, h3, h4, h5, h6⟩
    rw [Nat.zero_add] at h3
    subst h3
    obtain ⟨v, h7, h8⟩ := hsay i x h5
    exact ⟨u, v, h4, h7, by rw [h8]; exact h6⟩
  · rintro ⟨u, v, h3, h4, h5⟩
    obtain ⟨x, h6, h7⟩ := hsay' i v h4
    exact ⟨i, u, x, by omega, h3, h6, by rw [← h7]; exact h5⟩

/-- `parts1` of C90 with a long text. -/
def parts3 : List (Kind × List Line) :=
  [(.info, ["Title: a".toList, []]), (.events, ["Format: Layer, Start, End, Style, Text".toList,
    "Dialogue: 0,0:00:01.00,0:00:02.00,A,".toList ++ hundred, []])]

example (dbg : Section → Str) : ∃ δ t, (edit dbg (IDoc.fromContent (source [] parts1)) ⟨108, 111⟩ hundred).1 = .ok δ ∧
    parse (edit dbg (IDoc.fromContent (source [] parts1)) ⟨108, 111⟩ hundred).2.text = some t ∧ δ.added = [] := by
  have hs : ((parse (source [] parts1)).any (fun s => match s.sections with
      | [_, .events [(_, sp)]] => decide (sp.start < 111) && decide (108 < sp.stop)
      | _ => false)) = true := by decide +kernel
  cases hp : parse (source [] parts1) with
  | none => rw [hp] at hs; cases hs
  | some s =>
    rw [hp] at hs
    have hpl : (⟨108, 111⟩ : Range) = place ((source [] parts1).take 108) "one".toList := by decide +kernel
    rw [hpl]
    obtain ⟨δ, t, h1, h2, h3, _⟩ := C118_report_partial dbg (first := []) (first' := []) (parts := parts1) (parts' := parts3) (d := IDoc.fromContent (source [] parts1))
      (a := (source [] parts1).take 108) (m := "one".toList) (b := (source [] parts1).drop 111) (new := hundred) (s := s)
      (by decide) (by decide) (by simp) (by simp) (clean_lines (by decide +kernel)) (clean_lines (by decide +kernel)) (by decide) (by decide)
      (by decide +kernel) (by decide +kernel) rfl (by decide +kernel) (by decide +kernel) ⟨rfl, by decide⟩ (hundred_long _) hp (by
        rw [Option.any_some] at hs
        split at hs
        · rename_i i e sp heq
          rw [Bool.and_eq_true, decide_eq_true_eq, decide_eq_true_eq] at hs
          have hz : ∀ q ∈ parts1.zip parts3, q.1.2 ≠ q.2.2 → q.1.1 = .events := by decide +kernel
          have hsz : size ((source [] parts1).take 108) = 108 := by decide +kernel
          intro q hq hne
          refine ⟨.events [(e, sp)], by rw [heq]; simp, (hz q hq hne).symm, sp, sp, rfl, rfl, .inl ?_⟩
          rw [hsz]
          exact ⟨hs.2, hs.1⟩
        · cases hs)
    exact ⟨δ, t, h1, h2, h3⟩

/-! ## Where the parser falls behind -/

/-- **C118 (report), disagreement.** The first long edit of a new document reports no change at all, whatever it brings. -/
theorem C118_first_violated (dbg : Section → Str) {new : Str} (h : ¬ Short [] new) :
    (edit dbg IDoc.new (place [] []) new).1 = .ok ⟨[], [], []⟩ ∧ (edit dbg IDoc.new (place [] []) new).2.text = new ∧
    (edit dbg IDoc.new (place [] []) new).2.cache.cached = some [] := by
  rw [edit_long dbg _ h, long_at dbg IDoc.new (a := []) (m := []) (b := []) new rfl]
  have e : applyChange dbg IDoc.new.cache IDoc.new.text (place [] []) new = (.ok ⟨[], [], []⟩, ⟨some [], 0, 0, 10000⟩) := by
    have : parse ([] : Str) = some ⟨.ass4, [], [], none, none⟩ := by decide +kernel
    unfold applyChange IDoc.new Cache.new fullReparse
    dsimp only
    rw [this]
    rfl
  rw [again_at dbg _ (by rw [e]; simp), e]
  exact ⟨rfl, by simp, rfl⟩

example : ¬ Short [] "[Script Info]\nTitle: a\n[Events]\n".toList := by
  rintro ⟨_, h, _⟩
  revert h
  decide

/-- **C118 (text), disagreement.** The next long edit at the end of that document panics. -/
theorem C118_second_violated (dbg : Section → Str) {new more : Str} (hn : new ≠ []) (h : ¬ Short [] new) (h' : ¬ Short [] more) :
    (edit dbg (edit dbg IDoc.new (place [] []) new).2 (place new []) more).1 = .panic := by
  obtain ⟨_, h1, h2⟩ := C118_first_violated dbg h
  have h3 : (edit dbg IDoc.new (place [] []) new).2.cache.bytes < (edit dbg IDoc.new (place [] []) new).2.cache.threshold := by
    rw [edit_long dbg _ h, long_at dbg IDoc.new (a := []) (m := []) (b := []) new rfl]
    have e : applyChange dbg IDoc.new.cache IDoc.new.text (place [] []) new = (.ok ⟨[], [], []⟩, ⟨some [], 0, 0, 10000⟩) := by
      have : parse ([] : Str) = some ⟨.ass4, [], [], none, none⟩ := by decide +kernel
      unfold applyChange IDoc.new Cache.new fullReparse
      dsimp only
      rw [this]
      rfl
    rw [again_at dbg _ (by rw [e]; simp), e]
    show 0 < 10000
    decide
  refine ((C118_text dbg _ (a := new) (m := []) (b := []) more (by rw [h1]; simp)).2 h' ⟨[], h2, h3, ?_⟩).1
  rintro ⟨⟨p, q, e1, e2⟩, _⟩
  have : p = [] := by cases p with | nil => rfl | cons => cases e1
  subst this
  cases new with
  | nil => exact hn rfl
  | cons c new =>
    have : byteLen (c :: new) = c.utf8Size + byteLen new := byteLen_cons c new
    have e2 : 0 = byteLen (c :: new) := e2
    have := Char.utf8Size_pos c
    omega

/-- **C118 (text), disagreement.** Typing at the end of a document opened from a text, and then pasting there, panics. -/
theorem C118_typed_violated (dbg : Section → Str) {s new more : Str} (hn : new ≠ []) (h : Short [] new) (h' : ¬ Short [] more) :
    (edit dbg (edit dbg (IDoc.fromContent s) (place s []) new).2 (place (s ++ new) []) more).1 = .panic := by
  have ht : (IDoc.fromContent s).text = s ++ [] ++ [] := by show s = _; simp
  rw [edit_short dbg _ h, fast_at (IDoc.fromContent s) new ht]
  refine ((C118_text dbg _ (a := s ++ new) (m := []) (b := []) more (by simp)).2 h' ⟨s, rfl, by show 0 < 10000; decide, ?_⟩).1
  rintro ⟨⟨p, q, e1, e2⟩, _⟩
  have e2 : byteLen p = byteLen (s ++ new) := e2
  rw [e1, byteLen_append, byteLen_append] at e2
  cases new with
  | nil => exact hn rfl
  | cons c new =>
    have : byteLen (c :: new) = c.utf8Size + byteLen new := byteLen_cons c new
    have := Char.utf8Size_pos c
    omega

example : Short [] "a".toList ∧ ¬ Short [] hundred := ⟨by unfold Short; decide, hundred_long _⟩

/-! ## Undo and redo -/

/-- **C118 (undo), partial.** A short edit that puts in as many bytes as it takes away is undone by `undo`, and done again by `redo`.
Missing: edits that change the length and long edits, which are not undone (`C118_undo_short_violated`,
`C118_undo_long_violated`). -/
theorem C118_undo_partial (dbg : Section → Str) (d : IDoc) {a m b new : Str} (h : d.text = a ++ m ++ b) (hs : Short m new) (hl : size new = size m) :
    (edit dbg d (place a m) new).2.undoOne.1 = .ok () ∧ (edit dbg d (place a m) new).2.undoOne.2.text = d.text ∧
    (edit dbg d (place a m) new).2.undoOne.2.redoOne.1 = .ok () ∧ (edit dbg d (place a m) new).2.undoOne.2.redoOne.2.text = a ++ new ++ b := by
  rw [edit_short dbg d hs, fast_at d new h]
  have e : undoText (.text (.replace (place a m) m new)) (a ++ new ++ b) = (.ok (), a ++ m ++ b) := by
    show replaceRaw (a ++ new ++ b) (place a m) m = _
    have : place a m = ⟨byteLen a, byteLen a + byteLen new⟩ := by
      show (⟨size a, size a + size m⟩ : Range) = ⟨size a, size a + size new⟩
      rw [hl]
    rw [this]
    exact replaceRaw_at a new b m
  have e' : redoText (.text (.replace (place a m) m new)) (a ++ m ++ b) = (.ok (), a ++ new ++ b) := replaceRaw_at a m b new
  simp only [IDoc.undoOne, e, IDoc.redoOne, e', h]
  simp

/-- **C118 (undo), disagreement.** Undoing a short edit takes away as many bytes as the edit had taken away, not as many as it had put in, and says
it succeeded: the new text, or its end, stays, or text after it is lost. -/
theorem C118_undo_short_violated (dbg : Section → Str) (d : IDoc) {a m b new x y : Str} (h : d.text = a ++ m ++ b) (hs : Short m new)
    (hx : new ++ b = x ++ y) (hl : size x = size m) :
    (edit dbg d (place a m) new).2.undoOne.1 = .ok () ∧ (edit dbg d (place a m) new).2.undoOne.2.text = a ++ m ++ y := by
  rw [edit_short dbg d hs, fast_at d new h]
  have e : undoText (.text (.replace (place a m) m new)) (a ++ new ++ b) = (.ok (), a ++ m ++ y) := by
    show replaceRaw (a ++ new ++ b) (place a m) m = _
    have : place a m = ⟨byteLen a, byteLen a + byteLen x⟩ := by
      show (⟨size a, size a + size m⟩ : Range) = ⟨size a, size a + size x⟩
      rw [hl]
    rw [this, List.append_assoc, hx, ← List.append_assoc]
    exact replaceRaw_at a x y m
  simp only [IDoc.undoOne, e]
  simp

/-- **C118 (undo), disagreement.** What was typed stays after undo; and undoing a deletion overwrites what follows. -/
theorem C118_typing_violated (dbg : Section → Str) :
    (∀ (d : IDoc) (a b new : Str), d.text = a ++ b → Short [] new → (edit dbg d (place a []) new).2.undoOne.1 = .ok () ∧
      (edit dbg d (place a []) new).2.undoOne.2.text = a ++ new ++ b) ∧
    ((edit dbg (IDoc.fromContent "one two".toList) ⟨0, 3⟩ []).2.undoOne.2.text = "oneo".toList) := by
  constructor
  · intro d a b new h hs
    have := C118_undo_short_violated dbg d (a := a) (m := []) (b := b) (x := []) (y := new ++ b) (by rw [h]; simp) hs rfl rfl
    simpa using this
  · exact (C118_undo_short_violated dbg (IDoc.fromContent "one two".toList) (a := []) (m := "one".toList) (b := " two".toList) (new := [])
      (x := " tw".toList) (y := "o".toList) rfl (by unfold Short; decide) rfl (by decide)).2

/-- **C118 (undo), disagreement.** Undoing a long edit that reports at most two sections, none of them added, succeeds and changes nothing: the new text stays. -/
theorem C118_undo_long_violated (dbg : Section → Str) (d : IDoc) {a m b new : Str} (h : d.text = a ++ m ++ b) (hs : ¬ Short m new) {δ : Delta}
    (he : (edit dbg d (place a m) new).1 = .ok δ) (ha : δ.added = []) (hf : δ.removed.length + δ.modified.length ≤ 2) :
    (edit dbg d (place a m) new).2.undoOne.1 = .ok () ∧ (edit dbg d (place a m) new).2.undoOne.2.text = a ++ new ++ b := by
  rw [edit_long dbg d hs, long_at dbg d new h] at he ⊢
  cases hr : report dbg d.cache d.text (place a m) new with
  | mk o c =>
    rw [hr] at he
    cases o with
    | err => cases he
    | panic => cases he
    | ok δ' =>
      cases he
      have hc : capture d.text δ = some ([], []) := by
        unfold capture few
        rw [if_pos (by rw [ha]; simpa using hf)]
      dsimp only
      rw [hc]
      have : undoText (.delta δ [] []) (a ++ new ++ b) = (.ok (), a ++ new ++ b) := by
        unfold IncEdit.undoText
        dsimp only
        rw [ha]
        rfl
      simp only [IDoc.undoOne, Option.getD_some, this]
      simp

/-- A document of one section. -/
def titled : Str := "[Script Info]\nTitle: a\n".toList

/-- The same with a long title. -/
def entitled : Str := "[Script Info]\nTitle: ".toList ++ hundred ++ "\n".toList

/-- The section of the title, as the parser sees it after the edit. -/
def infoOf (s : Script) : Update.Delta := Update.delta s (Incremental.parseIncremental s entitled ⟨21, 22, hundred⟩)

set_option maxRecDepth 4000 in
/-- **C118 (redo), disagreement.** After a long edit, undo and redo, the whole document is the debugging output of a section. -/
theorem C118_redo_violated : ∃ sec, kindOf sec = .info ∧ ∀ dbg : Section → Str, ∀ d, d = edit dbg (IDoc.fromContent titled) ⟨21, 22⟩ hundred →
    d.2.text = entitled ∧ d.2.undoOne.2.text = entitled ∧ d.2.undoOne.2.redoOne.1 = .ok () ∧ d.2.undoOne.2.redoOne.2.text = dbg sec := by
  obtain ⟨s, hs, hP⟩ := of_parsed (src := titled) (P := fun s : Script => decide ((infoOf s).added = [] ∧ (infoOf s).removed = [] ∧
    (infoOf s).modified.map (fun p => (p.1, kindOf p.2)) = [(0, Kind.info)])) (by decide +kernel)
  obtain ⟨h1, h2, h3⟩ := of_decide_eq_true hP
  obtain ⟨sec, hm, hk⟩ : ∃ sec, (infoOf s).modified = [(0, sec)] ∧ kindOf sec = .info := by
    cases hl : (infoOf s).modified with
    | nil => rw [hl] at h3; cases h3
    | cons p l =>
      rw [hl] at h3
      simp only [List.map_cons, List.cons.injEq, Prod.mk.injEq, List.map_eq_nil_iff] at h3
      obtain ⟨⟨h4, h5⟩, h6⟩ := h3
      exact ⟨p.2, by rw [h6, ← h4], h5⟩
  refine ⟨sec, hk, ?_⟩
  rintro dbg d rfl
  have ht : (IDoc.fromContent titled).text = "[Script Info]\nTitle: ".toList ++ "a".toList ++ "\n".toList := by decide
  obtain ⟨δ, hδ, e⟩ := long_step dbg (IDoc.fromContent titled) hundred ht ⟨rfl, by decide⟩ (s := s) hs
  have hp : (⟨21, 22⟩ : Range) = place "[Script Info]\nTitle: ".toList "a".toList := by decide
  have hδ' : δ = ⟨[], [(0, dbg sec)], []⟩ := by
    rw [hδ]
    show owned dbg (infoOf s) = _
    unfold owned
    rw [h1, h2, hm]
    rfl
  rw [hp, edit_long dbg _ (hundred_long _), e]
  have hc : capture (IDoc.fromContent titled).text δ = some ([], []) := by
    rw [hδ']
    rfl
  have hu : undoText (.delta δ [] []) entitled = (.ok (), entitled) := by
    rw [hδ']
    rfl
  have hparse : (parse entitled).map (fun s => s.sections.map Update.kind) = some [Kind.info] := by decide +kernel
  have hr : redoText (.delta δ [] []) entitled = (.ok (), dbg sec) := by
    rw [hδ']
    unfold IncEdit.redoText DeltaApply.applyText
    cases hp : parse entitled with
    | none => rw [hp] at hparse; cases hparse
    | some sc =>
      rw [hp] at hparse
      have hks : sc.sections.map Update.kind = [Kind.info] := Option.some.inj hparse
      have h5 : DeltaApply.findStart entitled .info = some 0 := by decide +kernel
      have h6 : DeltaApply.findEnd entitled .info = .ok (byteLen entitled) := by decide +kernel
      have h7 : replaceRaw entitled (Range.new 0 (byteLen entitled)) (dbg sec) = (.ok (), dbg sec) := by
        have h8 := replaceRaw_at [] entitled [] (dbg sec)
        rw [List.nil_append, List.append_nil, List.nil_append, List.append_nil] at h8
        have h9 : (⟨byteLen ([] : Str), byteLen ([] : Str) + byteLen entitled⟩ : Range) = Range.new 0 (byteLen entitled) := by decide +kernel
        rwa [h9] at h8
      dsimp only
      rw [hp]
      dsimp only
      rw [hks]
      have h10 : DeltaApply.changeAll [Kind.info] [(0, some (dbg sec))] entitled = (.ok (), dbg sec) := by
        unfold DeltaApply.changeAll DeltaApply.changeSection
        dsimp only [List.getElem?_cons_zero]
        rw [h5]
        dsimp only
        rw [h6]
        dsimp only
        rw [h7]
        rfl
      show (match DeltaApply.changeAll [Kind.info] [(0, some (dbg sec))] entitled with
        | (.ok _, text2) => (Outcome.ok (), DeltaApply.addAll [] text2)
        | (o, text2) => (o, text2)) = _
      rw [h10]
      rfl
  have hdef : "[Script Info]\nTitle: ".toList ++ hundred ++ "\n".toList = entitled := rfl
  rw [hc, hdef]
  simp only [IDoc.undoOne, IDoc.redoOne, Option.getD_some, hu, hr]
  exact ⟨trivial, trivial, trivial, trivial⟩

/-- A document of three sections. -/
def three : Str := ("[Script Info]\nTitle: a\n[Fonts]\nfontname: f\nAA\n[Graphics]\nfilename: g\nAA\n").toList

/-- What is put from the title to the end of the graphics. -/
def threeNew : Str := "b\n[Fonts]\nfontname: h\nAA\n[Graphics]\nfilename: i\n".toList

/-- Undoing a long edit does not depend on how sections are written. -/
theorem undo_any (dbg dbg' : Section → Str) (d : IDoc) {a m b new : Str} (h : d.text = a ++ m ++ b) (hi : InStep d) (hs : ¬ Short m new) :
    (edit dbg d (place a m) new).2.undoOne.1 = (edit dbg' d (place a m) new).2.undoOne.1 ∧
    (edit dbg d (place a m) new).2.undoOne.2.text = (edit dbg' d (place a m) new).2.undoOne.2.text := by
  obtain ⟨s, hsc⟩ := parse_total (src := d.text)
  obtain ⟨δ, h1, h2⟩ := long_step dbg d new h hi hsc
  obtain ⟨δ', h1', h2'⟩ := long_step dbg' d new h hi hsc
  rw [edit_long dbg d hs, edit_long dbg' d hs, h2, h2', h1, h1', capture_dbg dbg dbg']
  simp only [IDoc.undoOne]
  rw [undo_dbg dbg dbg']
  generalize IncEdit.undoText _ _ = x
  obtain ⟨o, t⟩ := x
  cases o <;> exact ⟨rfl, rfl⟩

/-- **C118 (undo), disagreement.** Undoing an edit of three sections puts back more than there was: the sections after each of them come with it. -/
theorem C118_undo_sections_violated (dbg : Section → Str) :
    (edit dbg (IDoc.fromContent three) ⟨21, 71⟩ threeNew).2.undoOne.1 = .ok () ∧
    (edit dbg (IDoc.fromContent three) ⟨21, 71⟩ threeNew).2.undoOne.2.text = ("[Script Info]\nTitle: a\n[Fonts]\nfontname: f\nAA\n[Graphics]\n" ++
      "filename: g\nAA\n[Graphics]\nfilename: g\nAA\n[Fonts]\nfontname: h\nAA\n[Graphics]\nfilename: i\n\n").toList := by
  have ht : (IDoc.fromContent three).text = three.take 21 ++ (three.drop 21).take 50 ++ three.drop 71 := by decide
  have hp : (⟨21, 71⟩ : Range) = place (three.take 21) ((three.drop 21).take 50) := by decide
  have hs : ¬ Short ((three.drop 21).take 50) threeNew := by unfold Short; decide
  obtain ⟨h1, h2⟩ := undo_any dbg (fun _ => []) (IDoc.fromContent three) (new := threeNew) ht ⟨rfl, by decide⟩ hs
  rw [hp, h1, h2, ← hp]
  decide +kernel

end Verif.Props
