import Verif.Lemmas.ReportEdit
import Verif.Props.EventCmd
/-!
# C161 — commands on events and on embedded files come to an end and say where they changed the text

The model's reports are `none` (nothing changed) or the range and the cursor of `CommandResult`.  A command is run with a
bound on its loop; a command ends when it has a result for some bound.
-/
namespace Verif.Props.Report
open Verif Verif.Doc Verif.Pos Verif.Report Verif.Spec.Report
open Verif.EventCmd (EffectOp)

/-- The outcome without the report. -/
def plain : Outcome Report → Outcome Unit
  | .ok _ => .ok ()
  | .err => .err
  | .panic => .panic

/-- **C161.** Whether reports are collected makes no difference: outcome and document are those of the commands of C36 and C37. -/
theorem C161_same (edit : Nat → Str → Outcome (Option Str)) (n : Nat) (d : Doc) :
    (Report.editEvents edit n d).map (fun r => (plain r.1, r.2)) = EventCmd.editEvents edit n d := by
  unfold Report.editEvents EventCmd.editEvents
  cases EventCmd.bodySplit d.text with
  | none => rfl
  | some p =>
    dsimp only
    rw [← editLoop_same false edit n d _ 0 none]
    congr 1

theorem good {edit : Nat → Str → Outcome (Option Str)} (d : Doc)
    (he : ∀ i l new b t, d.text = b ++ l ++ t → '\n' ∉ l → EventCmd.isEventLine l = true → edit i l = .ok (some new) → Tame l new) :
    ∃ n o d', Report.editEvents edit n d = some (o, d') ∧ ∀ rep, o = .ok rep → Right d.text d'.text rep := by
  unfold Report.editEvents
  cases EventCmd.bodySplit d.text with
  | none => exact ⟨0, .err, d, rfl, fun rep h => by cases h⟩
  | some p => exact editLoop_good he _ d _ 0 none (Nat.le_refl _) rfl

/-- **C161.** Toggling events ends, for every document and selection, and reports a range outside of which nothing changed. -/
theorem C161_toggle (is : List Nat) (d : Doc) :
    ∃ n o d', Report.toggle is n d = some (o, d') ∧ ∀ rep, o = .ok rep → Right d.text d'.text rep :=
  good d (fun _ _ _ _ _ _ _ _ h => Or.inl (toggle_len h))

/-- **C161 (part).** Adjusting the times of events ends and reports a range outside of which nothing changed, if `Dialogue:` and
`Comment:` stand only at the beginning of lines.  Missing: documents where they also stand within lines. -/
theorem C161_timing_partial (is : List Nat) (so eo : Int) (d : Doc) (hm : MarksBegin d.text) :
    ∃ n o d', Report.timing is so eo n d = some (o, d') ∧ ∀ rep, o = .ok rep → Right d.text d'.text rep :=
  good d (fun i l new b t ho hl _ h => timing_tame hm i l new b t ho hl h)

/-- **C161 (part).** Changing the effects of events ends and reports a range outside of which nothing changed, if `Dialogue:` and
`Comment:` stand only at the beginning of lines and the effect is one line without them.
Missing: other documents and effects (`C161_ends_violated`). -/
theorem C161_effect_partial (is : List Nat) (op : EffectOp) (e : Str) (d : Doc) (hm : MarksBegin d.text) (he : Unmarked e)
    (hn : '\n' ∉ e) :
    ∃ n o d', Report.effect is op e n d = some (o, d') ∧ ∀ rep, o = .ok rep → Right d.text d'.text rep :=
  good d (fun i l new b t ho hl _ h => effect_tame hm he hn i l new b t ho hl h)

/-- Checks that no mark stands within a line. -/
def marksOk : Bool → Str → Bool
  | _, [] => true
  | b, c :: s => (b || !EventCmd.isEventLine (c :: s)) && marksOk (c == '\n') s

theorem marksOk_begin : ∀ (s : Str) (b : Bool), marksOk b s = true → ∀ a m t, Mark m → s = a ++ m ++ t →
    (a = [] ∧ b = true) ∨ a.getLast? = some '\n'
  | [], b, _, a, m, t, hm, h => absurd h (unmarked_nil a m t hm)
  | c :: s, b, hok, [], m, t, hm, h => by
    rw [marksOk, Bool.and_eq_true, Bool.or_eq_true] at hok
    have : EventCmd.isEventLine (c :: s) = true := by
      rw [h]
      exact EventCmd.isEventLine_iff.2 ⟨t, by rcases hm with rfl | rfl <;> simp⟩
    rcases hok.1 with h1 | h1
    · exact Or.inl ⟨rfl, h1⟩
    · rw [this] at h1; simp at h1
  | c :: s, b, hok, d :: a, m, t, hm, h => by
    rw [marksOk, Bool.and_eq_true] at hok
    injection h with h1 h2
    subst h1
    rcases marksOk_begin s _ hok.2 a m t hm h2 with ⟨rfl, h3⟩ | h3
    · right; simpa using h3
    · right
      cases a with
      | nil => simp at h3
      | cons x a => rw [List.getLast?_cons_cons]; exact h3

theorem marksBegin_of {s : Str} (h : marksOk true s = true) : MarksBegin s := by
  intro a m b hm hs
  rcases marksOk_begin s true h a m b hm hs with ⟨h, _⟩ | h
  · exact Or.inl h
  · exact Or.inr h

/-- A document with two events. -/
def exDoc : Doc := ⟨Verif.Props.exHead ++ "Dialogue: 0,0:00:01.00,0:00:02.00,D,,0,0,0,,Hi\n".toList ++
  "Comment: 0,0:00:03.00,0:00:04.00,D,,0,0,0,,Ho\n".toList, Stack.new ⟨50, 0, 100⟩⟩

set_option maxRecDepth 20000 in
example : MarksBegin exDoc.text := marksBegin_of (by decide)
example : Unmarked "fade".toList := by
  intro a m b hm h
  have := congrArg List.length h
  have := (mark_no hm).2.2
  simp at *
  omega
set_option maxRecDepth 20000 in
example : (Report.effect [] .set "fx".toList 9 exDoc).map (fun r => (r.1, r.2.text)) =
    some (.ok (some (⟨22, 118⟩, 119)), Verif.Props.exHead ++ "Dialogue: 0,0:00:01.00,0:00:02.00,D,,0,0,0,fx,Hi\n".toList ++
      "Comment: 0,0:00:03.00,0:00:04.00,D,,0,0,0,fx,Ho\n".toList) := by decide +kernel

/-- The selection is empty (all events) or has no index from `K` on. -/
theorem selected_small {is : List Nat} (h : is ≠ []) : ∃ K, ∀ i, K ≤ i → EventCmd.selected is i = false := by
  refine ⟨is.foldr max 0 + 1, fun i hi => ?_⟩
  have key : ∀ (l : List Nat) (j : Nat), j ∈ l → j ≤ l.foldr max 0 := by
    intro l
    induction l with
    | nil => intro j hj; simp at hj
    | cons x l ih =>
      intro j hj
      simp only [List.foldr_cons]
      rcases List.mem_cons.1 hj with rfl | hj
      · omega
      · have := ih j hj; omega
  unfold EventCmd.selected
  cases is with
  | nil => exact absurd rfl h
  | cons x l =>
    simp only [List.isEmpty_cons, Bool.false_or]
    cases hc : (x :: l).contains i with
    | false => rfl
    | true =>
      have := key (x :: l) i (by simpa using hc)
      omega

/-- **C161.** Adjusting the times of events ends, whatever the document. -/
theorem C161_timing_ends (is : List Nat) (so eo : Int) (d : Doc) : ∃ n r, EventCmd.timing is so eo n d = some r := by
  unfold EventCmd.timing EventCmd.editEvents
  cases EventCmd.bodySplit d.text with
  | none => exact ⟨0, _, rfl⟩
  | some p => exact editLoop_ends (K := 0) (fun _ _ _ _ _ h => timing_len h) 0 _ d _ 0 (by omega) (Nat.le_refl _)

/-- **C161 (part).** Changing the effects of events ends, whatever the document, if events are selected by their indices or the effect
has at most 14 bytes.  Missing: longer effects for all events (`C161_ends_violated`; `C161_effect_partial` for those without
`Dialogue:` and `Comment:`). -/
theorem C161_ends_partial (is : List Nat) (op : EffectOp) (e : Str) (d : Doc) (h : is ≠ [] ∨ bytes e ≤ 14) :
    ∃ n r, EventCmd.effect is op e n d = some r := by
  unfold EventCmd.effect EventCmd.editEvents
  cases EventCmd.bodySplit d.text with
  | none => exact ⟨0, _, rfl⟩
  | some p =>
    rcases h with h | h
    · obtain ⟨K, hK⟩ := selected_small h
      refine editLoop_ends (K := K) (fun i l new hi _ h => ?_) K _ d _ 0 (by omega) (Nat.le_refl _)
      unfold EventCmd.effectEdit at h
      rw [hK i hi] at h
      simp at h
    · exact editLoop_ends (K := 0) (fun _ _ _ _ _ g => effect_len g h) 0 _ d _ 0 (by omega) (Nat.le_refl _)

example : bytes "Banner;50".toList ≤ 14 := by decide

/-- The beginning of an event line, up to the effect. -/
def exStart : Str := "Dialogue: 0,0,0,0,0,0,0,0,".toList
/-- An effect that looks like an event. -/
def exEffect : Str := "zz".toList ++ exStart

theorem runs_on (n : Nat) : ∀ (d : Doc) (a : Str) (idx : Nat), d.text = a ++ (exStart ++ [',']) ++ ['\n'] →
    EventCmd.editLoop false (EventCmd.effectEdit [] .set exEffect) n d (byteLen a) idx = none := by
  induction n with
  | zero => intros; rfl
  | succ n ih =>
    intro d a idx hd
    have hdr : dropBytes d.text (byteLen a) = some ((exStart ++ [',']) ++ ['\n']) := by
      rw [hd, List.append_assoc]; exact dropBytes_append _ _
    have hlen : byteLen a < byteLen d.text := by
      rw [hd, byteLen_append, byteLen_append]
      have : byteLen ['\n'] = 1 := by decide
      omega
    have hed : EventCmd.effectEdit [] .set exEffect idx (exStart ++ [',']) = .ok (some (exStart ++ "zz".toList ++ (exStart ++ [',']))) := by
      show (if EventCmd.selected [] 0 then _ else _) = _
      decide +kernel
    have hline : ((exStart ++ [',']) ++ ['\n']).takeWhile (· ≠ '\n') = exStart ++ [','] := by decide
    obtain ⟨d1, h1, h2⟩ := EventCmd.replace_at d hd (exStart ++ "zz".toList ++ (exStart ++ [',']))
    rw [EventCmd.editLoop, if_pos hlen, hdr]
    dsimp only
    rw [hline, if_neg (by decide), if_pos (by decide), hed]
    dsimp only
    rw [h1]
    dsimp only
    have hpos : byteLen a + byteLen (exStart ++ [',']) + 1 = byteLen (a ++ exStart ++ "zz".toList) := by
      rw [byteLen_append (a ++ exStart), byteLen_append a]
      have e1 : byteLen (exStart ++ [',']) = 27 := by decide
      have e2 : byteLen exStart = 26 := by decide
      have e3 : byteLen "zz".toList = 2 := by decide
      omega
    rw [hpos]
    exact ih d1 _ _ (by rw [h2]; simp only [List.append_assoc])

/-- **C161, disagreement.** Setting the effect of all events to a text in which an event line begins can go on for ever: the
text behind the place of the old line is taken for the next line, and there the new effect begins an event again. -/
theorem C161_ends_violated : ¬ ∀ (is : List Nat) (op : EffectOp) (e : Str) (d : Doc), ∃ n r, EventCmd.effect is op e n d = some r := by
  intro H
  obtain ⟨n, r, h⟩ := H [] .set exEffect ⟨Verif.Props.exHead ++ (exStart ++ [',']) ++ ['\n'], Stack.new ⟨50, 0, 100⟩⟩
  unfold EventCmd.effect EventCmd.editEvents at h
  rw [show EventCmd.bodySplit _ = _ from (List.append_assoc Verif.Props.exHead _ _ ▸
    EventCmd.bodySplit_head Verif.Props.exHead_head ((exStart ++ [',']) ++ ['\n']))] at h
  dsimp only at h
  rw [runs_on n _ Verif.Props.exHead 0 rfl] at h
  simp at h

/-! ## Applying a style -/

/-- **C161.** The same for applying a style to events, the command of C68. -/
theorem C161_same_apply (old new : Str) (filter : Option Str) (n : Nat) (d : Doc) :
    (Report.apply old new filter n d).map (fun r => (plain r.1, r.2)) = StyleCmd.apply old new filter n d := by
  unfold Report.apply StyleCmd.apply
  cases StyleCmd.eventsStart d.text with
  | none => rfl
  | some p =>
    dsimp only
    rw [← editLoop_same true _ n d _ 0 none]
    congr 1

/-- **C161 (part).** Applying a style to events ends and reports a range outside of which nothing changed, if `Dialogue:` and
`Comment:` stand only at the beginning of lines and the name of the new style is one line without them.
Missing: other documents and names (`C161_apply_violated`). -/
theorem C161_apply_partial (old new : Str) (filter : Option Str) (d : Doc) (hm : MarksBegin d.text) (hx : Unmarked new)
    (hn : '\n' ∉ new) :
    ∃ n o d', Report.apply old new filter n d = some (o, d') ∧ ∀ rep, o = .ok rep → Right d.text d'.text rep := by
  unfold Report.apply
  cases StyleCmd.eventsStart d.text with
  | none => exact ⟨0, .err, d, rfl, fun rep h => by cases h⟩
  | some p =>
    refine editLoop_good (fun i l out b t ho hl hev h => ?_) _ d _ 0 none (Nat.le_refl _) rfl
    injection h with h
    exact apply_tame hm hx hn l out b t ho hl hev h

set_option maxRecDepth 20000 in
example : (Report.apply "D".toList "Sign".toList (some "Ho".toList) 9 exDoc).map (fun r => (r.1, r.2.text)) =
    some (.ok (some (⟨69, 117⟩, 118)), Verif.Props.exHead ++ "Dialogue: 0,0:00:01.00,0:00:02.00,D,,0,0,0,,Hi\n".toList ++
      "Comment: 0,0:00:03.00,0:00:04.00,Sign,,0,0,0,,Ho\n".toList) := by decide +kernel

/-- **C161 (part).** Applying a style ends, whatever the document, if the name of the new style is at most about twice as long
as that of the old.  Missing: longer names (`C161_apply_violated`; `C161_apply_partial` for those without `Dialogue:` and `Comment:`). -/
theorem C161_apply_ends_partial (old new : Str) (filter : Option Str) (d : Doc) (h : bytes new ≤ 2 * bytes old + 2) :
    ∃ n r, StyleCmd.apply old new filter n d = some r := by
  unfold StyleCmd.apply
  cases StyleCmd.eventsStart d.text with
  | none => exact ⟨0, _, rfl⟩
  | some p =>
    refine editLoop_ends (K := 0) (fun _ l out _ _ g => ?_) 0 _ d _ 0 (by omega) (Nat.le_refl _)
    injection g with g
    exact apply_len g h

example : bytes "Sign".toList ≤ 2 * bytes "D".toList + 2 := by decide

/-- An event line with the style `D`. -/
def exLine : Str := "Dialogue: 0,0,0,D,0".toList

theorem apply_runs_on (n : Nat) : ∀ (d : Doc) (a : Str) (idx : Nat), d.text = a ++ exLine ++ ['\n'] →
    EventCmd.editLoop true (fun _ l => .ok (StyleCmd.applyEdit "D".toList ("zzzz".toList ++ "Dialogue: 0,0,0,D".toList) none l)) n d
      (byteLen a) idx = none := by
  induction n with
  | zero => intros; rfl
  | succ n ih =>
    intro d a idx hd
    have hdr : dropBytes d.text (byteLen a) = some (exLine ++ ['\n']) := by
      rw [hd, List.append_assoc]; exact dropBytes_append _ _
    have hlen : byteLen a < byteLen d.text := by
      rw [hd, byteLen_append, byteLen_append]
      have : byteLen ['\n'] = 1 := by decide
      omega
    have hed : StyleCmd.applyEdit "D".toList ("zzzz".toList ++ "Dialogue: 0,0,0,D".toList) none exLine =
        some ("Dialogue: 0,0,0,".toList ++ "zzzz".toList ++ exLine) := by decide +kernel
    have hline : (exLine ++ ['\n']).takeWhile (· ≠ '\n') = exLine := by decide
    obtain ⟨d1, h1, h2⟩ := EventCmd.replace_at d hd ("Dialogue: 0,0,0,".toList ++ "zzzz".toList ++ exLine)
    rw [EventCmd.editLoop, if_pos hlen, hdr]
    dsimp only
    rw [hline, if_neg (by decide), if_pos (by decide), hed]
    dsimp only
    rw [h1]
    dsimp only
    have hpos : byteLen a + byteLen exLine + 1 = byteLen (a ++ "Dialogue: 0,0,0,".toList ++ "zzzz".toList) := by
      rw [byteLen_append (a ++ _), byteLen_append a]
      have e1 : byteLen exLine = 19 := by decide
      have e2 : byteLen "Dialogue: 0,0,0,".toList = 16 := by decide
      have e3 : byteLen "zzzz".toList = 4 := by decide
      omega
    rw [hpos]
    exact ih d1 _ _ (by rw [h2]; simp only [List.append_assoc])

/-- **C161, disagreement.** Applying a style can go on for ever: if the new name looks like an event with the old style, each
replacement puts such an event where the next line is looked for. -/
theorem C161_apply_violated : ¬ ∀ (old new : Str) (filter : Option Str) (d : Doc), ∃ n r, StyleCmd.apply old new filter n d = some r := by
  intro H
  obtain ⟨n, r, h⟩ := H "D".toList ("zzzz".toList ++ "Dialogue: 0,0,0,D".toList) none
    ⟨Verif.Props.exHead ++ exLine ++ ['\n'], Stack.new ⟨50, 0, 100⟩⟩
  unfold StyleCmd.apply at h
  rw [show StyleCmd.eventsStart _ = some Verif.Props.exHead from by decide +kernel] at h
  dsimp only at h
  rw [apply_runs_on n _ Verif.Props.exHead 0 rfl] at h
  simp at h

/-! ## Single changes -/

theorem replaced_covers {d d' : Doc} {a x c y t : Str} {rep : Report} (h1 : d.text = a ++ x) (h2 : d.text = c ++ y)
    (h : replaced d ⟨byteLen a, byteLen c⟩ t = (.ok rep, d')) : SaysOne d.text d'.text rep := by
  unfold replaced at h
  by_cases hle : byteLen a ≤ byteLen c
  · obtain ⟨m, k1, k2⟩ := append_of_byteLen_le (h1.symm.trans h2) hle
    obtain ⟨d1, g1, g2⟩ := EventCmd.replace_at d (a := a) (m := m) (b := y) (by rw [h1, k2, List.append_assoc]) t
    rw [k1, byteLen_append, g1] at h
    dsimp only at h
    injection h with e1 e2
    injection e1 with e1
    subst e1 e2
    exact ⟨_, rfl, ⟨a, m, t, y, by rw [h1, k2, List.append_assoc], g2, rfl, rfl⟩⟩
  · obtain ⟨m, k1, k2⟩ := append_of_byteLen_le (h2.symm.trans h1) (by omega)
    have hm : m ≠ [] := by rintro rfl; apply hle; rw [k1]; simp
    have hl : c.length < a.length := by
      rw [k1, List.length_append]
      cases m with
      | nil => exact absurd rfl hm
      | cons c m => simp
    have ht : textRange d.text ⟨byteLen a, byteLen c⟩ = .panic := by
      unfold textRange
      dsimp only
      rw [if_neg (by rw [h2, byteLen_append]; omega)]
      rw [show byteToChar d.text (byteLen a) = a.length by rw [h1]; exact byteToChar_append _ _,
        show byteToChar d.text (byteLen c) = c.length by rw [h2]; exact byteToChar_append _ _, if_neg (by omega)]
    unfold Doc.replace at h
    rw [ht] at h
    simp at h

theorem bodySplit_text {s pre body : Str} (h : EventCmd.bodySplit s = some (pre, body)) : s = pre ++ body := by
  unfold EventCmd.bodySplit at h
  cases h1 : splitOnceStr "[Events]".toList s with
  | none => rw [h1] at h; simp at h
  | some p1 =>
    rw [h1] at h
    dsimp only at h
    cases h2 : splitOnceStr "Format:".toList ("[Events]".toList ++ p1.2) with
    | none => rw [h2] at h; simp at h
    | some p2 =>
      rw [h2] at h
      dsimp only at h
      cases h3 : splitOnce '\n' ("Format:".toList ++ p2.2) with
      | none => rw [h3] at h; simp at h
      | some p3 =>
        rw [h3] at h
        dsimp only at h
        injection h with h
        injection h with e1 e2
        subst e1 e2
        have g1 := splitOnceStr_some h1
        have g2 := splitOnceStr_some h2
        have g3 := (splitOnce_some h3).1
        rw [g1.1]
        rw [List.append_assoc, g2.1, List.append_assoc, g3]
        simp only [List.append_assoc, List.cons_append, List.nil_append]

theorem rowsNl_flatten : ∀ s : Str, (EventCmd.rowsNl s).flatten = s
  | [] => rfl
  | c :: s => by
    have ih := rowsNl_flatten s
    rw [EventCmd.rowsNl]
    split
    · next hc => rw [List.flatten_cons, ih, hc]; rfl
    · cases h : EventCmd.rowsNl s with
      | nil => rw [h] at ih; simp at ih; subst ih; rfl
      | cons r rs => rw [h] at ih; simp only [List.flatten_cons, List.cons_append] at ih ⊢; rw [ih]

theorem findEvent_row (k : Nat) : ∀ (rows : List Str) (pos idx : Nat) (r : Range), EventCmd.findEvent k rows pos idx = .ok (some r) →
    ∃ u row v, rows = u ++ row :: v ∧ r = ⟨pos + byteLen u.flatten, pos + byteLen u.flatten + byteLen row⟩
  | [], _, _, _, h => by simp [EventCmd.findEvent] at h
  | row :: rows, pos, idx, r, h => by
    have next : ∀ j, EventCmd.findEvent k rows (pos + byteLen row) j = .ok (some r) →
        ∃ u w v, row :: rows = u ++ w :: v ∧ r = ⟨pos + byteLen u.flatten, pos + byteLen u.flatten + byteLen w⟩ := by
      intro j h
      obtain ⟨u, w, v, h1, h2⟩ := findEvent_row k rows _ _ _ h
      exact ⟨row :: u, w, v, by rw [h1]; rfl, by rw [h2, List.flatten_cons, byteLen_append, Nat.add_assoc pos]⟩
    rw [EventCmd.findEvent] at h
    split at h
    · simp at h
    · split at h
      · split at h
        · injection h with h
          injection h with h
          exact ⟨[], row, rows, rfl, by rw [← h]; simp⟩
        · exact next _ h
      · exact next _ h

/-- **C161.** Deleting an event reports, if it succeeds, the empty range at the place where the line was; nothing else changed. -/
theorem C161_delete (k : Nat) (d d' : Doc) (rep : Report) (h : Report.deleteEvent k d = (.ok rep, d')) :
    SaysOne d.text d'.text rep := by
  unfold Report.deleteEvent at h
  cases hb : EventCmd.bodySplit d.text with
  | none => rw [hb] at h; simp at h
  | some p =>
    obtain ⟨pre, body⟩ := p
    rw [hb] at h
    dsimp only at h
    split at h
    · next r hf =>
      obtain ⟨u, row, v, h1, h2⟩ := findEvent_row k _ _ _ _ hf
      have ht := bodySplit_text hb
      have hbd : body = u.flatten ++ (row ++ v.flatten) := by
        rw [← rowsNl_flatten body, h1]; simp
      have htext : d.text = (pre ++ u.flatten) ++ row ++ v.flatten := by
        rw [ht, hbd]; simp only [List.append_assoc]
      obtain ⟨d1, g1, g2⟩ := EventCmd.delete_at d htext
      rw [byteLen_append] at g1
      unfold deleted at h
      rw [h2, g1] at h
      dsimp only at h
      injection h with e1 e2
      injection e1 with e1
      subst e1 e2
      exact ⟨_, rfl, ⟨pre ++ u.flatten, row, [], v.flatten, htext, by rw [g2, List.append_nil], by rw [bytes_eq, byteLen_append],
        by rw [bytes_eq, byteLen_append]; rfl⟩⟩
    · simp at h
    · simp at h
    · simp at h

set_option maxRecDepth 20000 in
example : (fun r : Outcome Report × Doc => (r.1, r.2.text.length)) (Report.deleteEvent 1 exDoc) = (.ok (some (⟨69, 69⟩, 69)), 69) := by
  decide +kernel

theorem splitOn_cases {s l : Str} {ls : List Str} (h : splitOn '\n' s = l :: ls) :
    (ls = [] ∧ s = l) ∨ ∃ s', s = l ++ '\n' :: s' ∧ splitOn '\n' s' = ls := by
  cases hs : splitOnce '\n' s with
  | none =>
    rw [splitOn_of_not_mem (splitOnce_eq_none hs)] at h
    injection h with h1 h2
    exact Or.inl ⟨h2.symm, h1⟩
  | some p =>
    obtain ⟨h1, h2⟩ := splitOnce_some hs
    rw [h1, splitOn_append_sep _ h2] at h
    injection h with h3 h4
    exact Or.inr ⟨p.2, by rw [← h3]; exact h1, h4⟩

theorem eventsIn_at : ∀ (ls : List Str) (body : Str) (pos : Nat), splitOn '\n' body = ls → ∀ p l, (p, l) ∈ EventCmd.eventsIn ls pos →
    ∃ u v, body = u ++ l ++ v ∧ p = pos + byteLen u ∧ (v = [] ∨ ∃ w, v = '\n' :: w)
  | [], body, _, h, _, _, _ => absurd h (splitOn_ne_nil _ _)
  | r :: ls, body, pos, h, p, l, hm => by
    have hnl : '\n'.utf8Size = 1 := by decide
    have next : (p, l) ∈ EventCmd.eventsIn ls (pos + byteLen r + 1) →
        ∃ u v, body = u ++ l ++ v ∧ p = pos + byteLen u ∧ (v = [] ∨ ∃ w, v = '\n' :: w) := by
      intro hm
      rcases splitOn_cases h with ⟨h1, _⟩ | ⟨s', h1, h2⟩
      · rw [h1] at hm; simp [EventCmd.eventsIn] at hm
      · obtain ⟨u, v, g1, g2, g3⟩ := eventsIn_at ls s' _ h2 p l hm
        refine ⟨r ++ '\n' :: u, v, by rw [h1, g1]; simp, ?_, g3⟩
        rw [g2, byteLen_append, byteLen_cons, hnl]
        omega
    rw [EventCmd.eventsIn] at hm
    split at hm
    · simp at hm
    · split at hm
      · rcases List.mem_cons.1 hm with he | hm
        · injection he with e1 e2
          subst e1 e2
          rcases splitOn_cases h with ⟨_, h2⟩ | ⟨s', h1, _⟩
          · exact ⟨[], [], by simpa using h2, by simp, Or.inl rfl⟩
          · exact ⟨[], '\n' :: s', by simpa using h1, by simp, Or.inr ⟨s', rfl⟩⟩
        · exact next hm
      · split at hm
        · simp at hm
        · exact next hm

/-- **C161.** Merging two events reports, if it succeeds, exactly the range of the merged line. -/
theorem C161_merge (i j : Nat) (sep : Str) (d d' : Doc) (rep : Report) (h : Report.mergeEvents i j sep d = (.ok rep, d')) :
    SaysOne d.text d'.text rep := by
  unfold Report.mergeEvents at h
  split at h
  · simp at h
  · cases hb : EventCmd.bodySplit d.text with
    | none => rw [hb] at h; simp at h
    | some p =>
      obtain ⟨pre, body⟩ := p
      rw [hb] at h
      dsimp only at h
      split at h
      · next p1 l1 p2 l2 hi hj =>
        have ht := bodySplit_text hb
        obtain ⟨u1, v1, a1, a2, _⟩ := eventsIn_at _ body _ rfl p1 l1 (List.mem_of_getElem? hi)
        obtain ⟨u2, v2, b1, b2, b3⟩ := eventsIn_at _ body _ rfl p2 l2 (List.mem_of_getElem? hj)
        unfold Report.mergeLines at h
        split at h
        · simp at h
        · simp at h
        · split at h
          · simp at h
          · simp at h
          · rcases b3 with rfl | ⟨w, rfl⟩
            · exfalso
              have hlen : byteLen d.text < p2 + byteLen l2 + 1 := by
                rw [ht, b1, b2, byteLen_append, byteLen_append, byteLen_append]; simp; omega
              unfold replaced Doc.replace at h
              have : textRange d.text ⟨p1, p2 + byteLen l2 + 1⟩ = .err := by
                unfold textRange
                rw [if_pos hlen]
              rw [this] at h
              simp at h
            · have e1 : d.text = (pre ++ u1) ++ (l1 ++ v1) := by rw [ht, a1]; simp only [List.append_assoc]
              have e2 : d.text = (pre ++ u2 ++ l2 ++ ['\n']) ++ w := by rw [ht, b1]; simp
              have hp : p1 = byteLen (pre ++ u1) := by rw [a2, byteLen_append]
              have hq : p2 + byteLen l2 + 1 = byteLen (pre ++ u2 ++ l2 ++ ['\n']) := by
                rw [b2]; simp only [byteLen_append]; rfl
              rw [hp, hq] at h
              exact replaced_covers e1 e2 h
      · simp at h

set_option maxRecDepth 20000 in
example : (fun r : Outcome Report × Doc => (r.1, r.2.text)) (Report.mergeEvents 0 1 "+".toList exDoc) = (.ok (some (⟨22, 72⟩, 72)),
    Verif.Props.exHead ++ "Dialogue: 0,0:00:01.00,0:00:04.00,D,,0,0,0,,Hi+Ho\n".toList) := by decide +kernel

/-- **C161.** Splitting an event reports, if it succeeds, exactly the range of the two new lines. -/
theorem C161_split (k : Nat) (at_ : Str) (d d' : Doc) (rep : Report) (h : Report.splitEvent k at_ d = (.ok rep, d')) :
    SaysOne d.text d'.text rep := by
  unfold Report.splitEvent at h
  split at h
  · simp at h
  · simp at h
  · cases hb : EventCmd.bodySplit d.text with
    | none => rw [hb] at h; simp at h
    | some p =>
      obtain ⟨pre, body⟩ := p
      rw [hb] at h
      dsimp only at h
      split at h
      · next p l hk =>
        have ht := bodySplit_text hb
        obtain ⟨u, v, a1, a2, _⟩ := eventsIn_at _ body _ rfl p l (List.mem_of_getElem? hk)
        unfold Report.splitLine at h
        split at h
        · simp at h
        · simp at h
        · split at h
          · simp at h
          · simp at h
          · split at h
            · simp at h
            · simp at h
            · unfold Report.splitTimed at h
              split at h
              · simp at h
              · have e1 : d.text = (pre ++ u) ++ (l ++ v) := by rw [ht, a1]; simp only [List.append_assoc]
                have e2 : d.text = (pre ++ u ++ l) ++ v := by rw [ht, a1]; simp
                have hp : p = byteLen (pre ++ u) := by rw [a2, byteLen_append]
                have hq : p + byteLen l = byteLen (pre ++ u ++ l) := by rw [hp]; simp only [byteLen_append]
                rw [hq, hp] at h
                exact replaced_covers e1 e2 h
      · simp at h

set_option maxRecDepth 20000 in
example : (fun r : Outcome Report × Doc => (r.1, r.2.text)) (Report.splitEvent 1 "0:00:03.50".toList exDoc) =
    (.ok (some (⟨69, 160⟩, 160)), Verif.Props.exHead ++ "Dialogue: 0,0:00:01.00,0:00:02.00,D,,0,0,0,,Hi\n".toList ++
      "Comment: 0,0:00:03.00,0:00:03.50,D,,0,0,0,,Ho\n".toList ++ "Comment: 0,0:00:03.50,0:00:04.00,D,,0,0,0,,Ho\n".toList) := by
  decide +kernel

/-- **C161.** Reports make no difference to splitting either (C66). -/
theorem C161_same_split (k : Nat) (at_ : Str) (d : Doc) :
    (plain (Report.splitEvent k at_ d).1, (Report.splitEvent k at_ d).2) = EventCmd.splitEvent k at_ d := by
  unfold Report.splitEvent EventCmd.splitEvent
  cases Time.parseAssTime at_ with
  | err => rfl
  | overflow => rfl
  | ok t =>
    dsimp only
    cases EventCmd.bodySplit d.text with
    | none => rfl
    | some p =>
      dsimp only
      cases (EventCmd.eventsIn (splitOn '\n' p.2) (byteLen p.1))[k]? with
      | none => rfl
      | some e =>
        dsimp only
        unfold Report.splitLine EventCmd.splitLine
        cases EventCmd.parseEventLine e.2 with
        | err => rfl
        | panic => rfl
        | ok g =>
          dsimp only
          cases Time.parseAssTime g.start with
          | err => rfl
          | overflow => rfl
          | ok s =>
            dsimp only
            cases Time.parseAssTime g.fin with
            | err => rfl
            | overflow => rfl
            | ok f =>
              dsimp only
              unfold Report.splitTimed EventCmd.splitTimed
              split
              · rfl
              · unfold replaced
                generalize d.replace _ _ = R
                obtain ⟨o, d'⟩ := R
                cases o <;> rfl

/-- **C161.** Reports make no difference to the other commands either: outcome and document are those of C65 and C66. -/
theorem C161_same_single (d : Doc) :
    (∀ k, (plain (Report.deleteEvent k d).1, (Report.deleteEvent k d).2) = EventCmd.deleteEvent k d) ∧
    (∀ i j sep, (plain (Report.mergeEvents i j sep d).1, (Report.mergeEvents i j sep d).2) = EventCmd.mergeEvents i j sep d) ∧
    (∀ is, (plain (Report.batchDelete is d).1, (Report.batchDelete is d).2) = EventCmd.batchDelete is d) := by
  refine ⟨fun k => ?_, fun i j sep => ?_, fun is => ?_⟩
  · unfold Report.deleteEvent EventCmd.deleteEvent
    cases EventCmd.bodySplit d.text with
    | none => rfl
    | some p =>
      dsimp only
      cases EventCmd.findEvent k (EventCmd.rowsNl p.2) (byteLen p.1) 0 with
      | err => rfl
      | panic => rfl
      | ok o =>
        cases o with
        | none => rfl
        | some r =>
          dsimp only
          unfold deleted
          obtain ⟨o, d'⟩ := d.delete r
          cases o <;> rfl
  · unfold Report.mergeEvents EventCmd.mergeEvents
    by_cases h : i ≥ j
    · rw [if_pos h, if_pos h]; rfl
    · rw [if_neg h, if_neg h]
      cases EventCmd.bodySplit d.text with
      | none => rfl
      | some p =>
        dsimp only
        cases (EventCmd.eventsIn (splitOn '\n' p.2) (byteLen p.1))[i]? with
        | none => rfl
        | some e1 =>
          cases (EventCmd.eventsIn (splitOn '\n' p.2) (byteLen p.1))[j]? with
          | none => rfl
          | some e2 =>
            dsimp only
            unfold Report.mergeLines EventCmd.mergeLines
            cases EventCmd.parseEventLine e1.2 with
            | err => rfl
            | panic => rfl
            | ok f1 =>
              dsimp only
              cases EventCmd.parseEventLine e2.2 with
              | err => rfl
              | panic => rfl
              | ok f2 =>
                dsimp only
                unfold replaced
                generalize d.replace _ _ = q
                obtain ⟨o, d'⟩ := q
                cases o <;> rfl
  · unfold Report.batchDelete EventCmd.batchDelete
    by_cases h : is = []
    · rw [if_pos h, if_pos h]; rfl
    · rw [if_neg h, if_neg h]
      cases EventCmd.bodySplit d.text with
      | none => rfl
      | some p =>
        dsimp only
        cases EventCmd.allEvents (EventCmd.rowsNl p.2) (byteLen p.1) 0 with
        | err => rfl
        | panic => rfl
        | ok es =>
          dsimp only
          generalize EventCmd.deleteRanges _ d = q
          obtain ⟨o, d'⟩ := q
          cases o <;> rfl

/-! ## Several deletions -/

theorem allEvents_row : ∀ (rows : List Str) (pos idx : Nat) (es : List (Nat × Range)), EventCmd.allEvents rows pos idx = .ok es →
    ∀ e ∈ es, ∃ u v, rows = u ++ v ∧ e.2.start = pos + byteLen u.flatten
  | [], _, _, es, h, e, he => by
    injection h with h
    subst h
    simp at he
  | row :: rows, pos, idx, es, h, e, he => by
    have next : ∀ j es', EventCmd.allEvents rows (pos + byteLen row) j = .ok es' → e ∈ es' →
        ∃ u v, row :: rows = u ++ v ∧ e.2.start = pos + byteLen u.flatten := by
      intro j es' h he
      obtain ⟨u, v, h1, h2⟩ := allEvents_row rows _ _ _ h e he
      exact ⟨row :: u, v, by rw [h1]; rfl, by rw [h2, List.flatten_cons, byteLen_append, Nat.add_assoc pos]⟩
    rw [EventCmd.allEvents] at h
    split at h
    · simp at h
    · split at h
      · split at h
        · next es' hes =>
          injection h with h
          subst h
          rcases List.mem_cons.1 he with rfl | he
          · exact ⟨[], row :: rows, rfl, by simp⟩
          · exact next _ _ hes he
        · next hno => exact absurd h (hno es)
      · exact next _ _ h he

theorem delete_front {d d' : Doc} {a s : Str} {r : Range} (hd : d.text = a ++ s) (hr : byteLen a ≤ r.start)
    (h : d.delete r = (.ok (), d')) : ∃ s', d'.text = a ++ s' := by
  unfold Doc.delete at h
  split at h
  · simp at h
  · simp at h
  · have hk : a.length ≤ byteToChar d.text r.start := by
      have := byteToChar_mono d.text hr
      rw [show byteToChar d.text (byteLen a) = a.length by rw [hd]; exact byteToChar_append _ _] at this
      exact this
    unfold deleteRaw at h
    split at h
    · next s1 h1 =>
      injection h with _ h
      subst h
      split at h1
      · simp at h1
      · dsimp only at h1
        split at h1
        · injection h1 with _ h1
          subst h1
          refine ⟨s.take (byteToChar d.text r.start - a.length) ++ d.text.drop (byteToChar d.text r.fin), ?_⟩
          show d.text.take (byteToChar d.text r.start) ++ _ = _
          rw [show d.text.take (byteToChar d.text r.start) = a ++ s.take (byteToChar d.text r.start - a.length) by
            conv => lhs; rw [hd]
            rw [List.take_append, List.take_of_length_le (by rw [← hd]; exact hk), ← hd], List.append_assoc]
        · simp at h1
    · next o s1 hno h1 =>
      injection h with h _
      exact absurd h (hno ())

theorem deleteRanges_front : ∀ (rs : List Range) (d d' : Doc) (a s : Str), d.text = a ++ s → (∀ r ∈ rs, byteLen a ≤ r.start) →
    EventCmd.deleteRanges rs d = (.ok (), d') → ∃ s', d'.text = a ++ s'
  | [], d, d', a, s, hd, _, h => by
    injection h with _ h
    subst h
    exact ⟨s, hd⟩
  | r :: rs, d, d', a, s, hd, hr, h => by
    rw [EventCmd.deleteRanges] at h
    split at h
    · next d1 h1 =>
      obtain ⟨s1, h2⟩ := delete_front hd (hr r (by simp)) h1
      exact deleteRanges_front rs d1 d' a s1 h2 (fun x hx => hr x (by simp [hx])) h
    · next o hno => exact absurd h (hno () d')

theorem earliest_le (len : Nat) : ∀ (rs : List Range) (r : Range), r ∈ rs → earliest len rs ≤ r.start
  | x :: rs, r, h => by
    rw [earliest]
    rcases List.mem_cons.1 h with rfl | h
    · omega
    · have := earliest_le len rs r h; omega

theorem earliest_mem (len : Nat) : ∀ (rs : List Range), rs ≠ [] → (∀ r ∈ rs, r.start ≤ len) → ∃ r ∈ rs, earliest len rs = r.start
  | [x], _, h => ⟨x, by simp, by have := h x (by simp); simp [earliest]; omega⟩
  | x :: y :: rs, _, h => by
    obtain ⟨r, hr, he⟩ := earliest_mem len (y :: rs) (by simp) (fun r hr => h r (by simp [hr]))
    rw [earliest]
    by_cases hx : x.start ≤ earliest len (y :: rs)
    · exact ⟨x, by simp, by omega⟩
    · exact ⟨r, by simp [hr], by rw [← he]; omega⟩

/-- **C161 (part).** Deleting several events reports, if it succeeds, no change when there was none to be made, otherwise a place before which the text is unchanged.
Missing: that what follows the place is unchanged too (`C161_batch_violated`). -/
theorem C161_batch_partial (is : List Nat) (d d' : Doc) (rep : Report) (h : Report.batchDelete is d = (.ok rep, d')) :
    match rep with
    | none => d'.text = d.text
    | some (r, cursor) => r.start = r.fin ∧ cursor = r.start ∧ ∃ a s s', bytes a = r.start ∧ d.text = a ++ s ∧ d'.text = a ++ s' := by
  unfold Report.batchDelete at h
  split at h
  · injection h with h1 h2
    injection h1 with h1
    subst h1 h2
    rfl
  · cases hb : EventCmd.bodySplit d.text with
    | none => rw [hb] at h; simp at h
    | some p =>
      obtain ⟨pre, body⟩ := p
      rw [hb] at h
      dsimp only at h
      have ht := bodySplit_text hb
      cases hes : EventCmd.allEvents (EventCmd.rowsNl body) (byteLen pre) 0 with
      | err => rw [hes] at h; simp at h
      | panic => rw [hes] at h; simp at h
      | ok es =>
        rw [hes] at h
        dsimp only at h
        have hrows : ∀ r ∈ (es.reverse.filter (fun e => is.contains e.1)).map (·.2), ∃ a s, d.text = a ++ s ∧ byteLen a = r.start := by
          intro r hr
          obtain ⟨e, he, rfl⟩ := List.mem_map.1 hr
          obtain ⟨u, v, h1, h2⟩ := allEvents_row _ _ _ _ hes e (by simpa using (List.mem_filter.1 he).1)
          refine ⟨pre ++ u.flatten, v.flatten, ?_, by rw [byteLen_append, h2]⟩
          rw [ht, ← rowsNl_flatten body, h1]; simp
        generalize (es.reverse.filter (fun e => is.contains e.1)).map (·.2) = rs at *
        split at h
        · next d1 hdel =>
          injection h with h1 h2
          injection h1 with h1
          subst h2
          by_cases hrs : rs = []
          · rw [if_pos hrs] at h1
            subst h1 hrs
            injection hdel with _ hdel
            subst hdel
            rfl
          · rw [if_neg hrs] at h1
            subst h1
            obtain ⟨r, hr, he⟩ := earliest_mem (byteLen d.text) rs hrs (fun r hr => by
              obtain ⟨a, s, g1, g2⟩ := hrows r hr
              rw [← g2, g1, byteLen_append]; omega)
            obtain ⟨a, s, g1, g2⟩ := hrows r hr
            obtain ⟨s', g3⟩ := deleteRanges_front rs d _ a s g1 (fun x hx => by
              rw [g2, ← he]; exact earliest_le _ rs x hx) hdel
            exact ⟨rfl, rfl, a, s, s', by rw [bytes_eq, g2, ← he], g1, g3⟩
        · simp at h
        · simp at h

/-- A document with three events. -/
def exThree : Doc := ⟨Verif.Props.exHead ++ "Dialogue: a\nDialogue: b\nDialogue: c\n".toList, Stack.new ⟨50, 0, 100⟩⟩

set_option maxRecDepth 20000 in
/-- **C161, disagreement.** Deleting two events with another between them reports an empty range, so that the second deletion goes
unreported. -/
theorem C161_batch_violated : ¬ ∀ (is : List Nat) (d d' : Doc) (rep : Report), Report.batchDelete is d = (.ok rep, d') →
    match rep with
    | none => d'.text = d.text
    | some (r, _) => Covers d.text d'.text r := by
  intro H
  have hr : (Report.batchDelete [0, 2] exThree).1 = .ok (some (⟨22, 22⟩, 22)) := by decide +kernel
  have ht : (Report.batchDelete [0, 2] exThree).2.text = Verif.Props.exHead ++ "Dialogue: b\n".toList := by decide +kernel
  have H2 := H [0, 2] exThree
  generalize Report.batchDelete [0, 2] exThree = R at hr ht H2
  obtain ⟨o, d'⟩ := R
  dsimp only at hr ht
  subst hr
  obtain ⟨a, old, new, b, h1, h2, h3, h4⟩ := H2 d' _ rfl
  rw [ht] at h2
  have hnew : new = [] := by
    have h5 : bytes new = 0 := by dsimp only at h3 h4; omega
    cases new with
    | nil => rfl
    | cons c n => have := byteLen_pos (s := c :: n) (by simp); rw [bytes_eq] at h5; omega
  subst hnew
  rw [List.append_nil] at h2
  have hx : byteLen Verif.Props.exHead = 22 := by decide
  obtain ⟨x, k1, k2⟩ := append_of_byteLen_le h2 (by rw [hx]; exact Nat.le_of_eq h3)
  have : x = [] := by
    have h5 := congrArg byteLen k1
    rw [byteLen_append, hx] at h5
    rw [bytes_eq] at h3
    dsimp only at h3
    cases x with
    | nil => rfl
    | cons c n => have := byteLen_pos (s := c :: n) (by simp); omega
  subst this
  have hsuf : b <:+ exThree.text := ⟨a ++ old, h1.symm⟩
  rw [List.nil_append] at k2
  rw [← k2] at hsuf
  revert hsuf
  decide +kernel

/-! ## Embedded files -/

theorem parts_text {hd c pre sec post : Str} (h : Media.parts hd c = some (pre, sec, post)) : c = pre ++ sec ++ post := by
  unfold Media.parts at h
  cases h1 : splitOnceStr hd c with
  | none => rw [h1] at h; simp at h
  | some p =>
    rw [h1] at h
    dsimp only at h
    have g1 := (splitOnceStr_some h1).1
    cases h2 : splitOnceStr "\n[".toList (hd ++ p.2) with
    | none =>
      rw [h2] at h
      injection h with h
      injection h with e1 h
      injection h with e2 e3
      subst e1 e2 e3
      rw [List.append_nil, ← List.append_assoc]; exact g1
    | some q =>
      rw [h2] at h
      have g2 := (splitOnceStr_some h2).1
      injection h with h
      injection h with e1 h
      injection h with e2 e3
      subst e1 e2 e3
      rw [g1, List.append_assoc, g2]
      simp only [List.append_assoc]

/-- **C161.** The range reported for an added font or graphic is the place of its entry. -/
theorem C161_media_entry (hd key name : Str) (lines : List Str) (c : Str) :
    ∃ a b, Media.add hd key name lines c = a ++ Media.entry key name lines ++ b ∧
      (addMedia hd key name lines c).1 = ⟨bytes a, bytes a + bytes (Media.entry key name lines)⟩ ∧
      (addMedia hd key name lines c).2 = (addMedia hd key name lines c).1.fin := by
  unfold Media.add addMedia
  cases hp : Media.parts hd c with
  | some p =>
    obtain ⟨pre, sec, post⟩ := p
    refine ⟨pre ++ sec, post, rfl, ?_, rfl⟩
    simp only [bytes_eq, byteLen_append]
  | none =>
    have hnl : byteLen ['\n'] = 1 := by decide
    refine ⟨c ++ (if endsWith ['\n'] c then [] else ['\n']) ++ hd ++ ['\n'], [], by rw [List.append_nil], ?_, rfl⟩
    simp only [bytes_eq, byteLen_append, hnl]
    cases endsWith ['\n'] c
    · simp only [Bool.false_eq_true, if_false, hnl]
    · simp only [if_true, byteLen_nil]

/-- **C161 (part).** Adding a font or graphic to a document that has the section reports a range outside of which nothing changed.
Missing: a document without the section (`C161_media_violated`). -/
theorem C161_media_partial (hd key name : Str) (lines : List Str) (x y : Str) :
    Covers (x ++ hd ++ y) (Media.add hd key name lines (x ++ hd ++ y)) (addMedia hd key name lines (x ++ hd ++ y)).1 := by
  unfold Media.add addMedia
  cases hp : Media.parts hd (x ++ hd ++ y) with
  | some p =>
    obtain ⟨pre, sec, post⟩ := p
    refine ⟨pre ++ sec, [], Media.entry key name lines, post, by rw [List.append_nil]; exact parts_text hp, rfl, ?_, ?_⟩ <;>
      simp only [bytes_eq, byteLen_append]
  | none =>
    exfalso
    unfold Media.parts at hp
    cases h1 : splitOnceStr hd (x ++ hd ++ y) with
    | none => exact splitOnceStr_none.1 h1 x y rfl
    | some p =>
      rw [h1] at hp
      dsimp only at hp
      split at hp <;> simp at hp

set_option maxRecDepth 20000 in
example : addMedia "[Fonts]".toList "fontname".toList "a".toList ["!!".toList] "[Fonts]\n".toList = (⟨8, 23⟩, 23) := by decide +kernel

/-- **C161, disagreement.** Adding a font to a document without fonts reports a range that leaves out the new section header. -/
theorem C161_media_violated : ¬ ∀ (hd key name : Str) (lines : List Str) (c : Str),
    Covers c (Media.add hd key name lines c) (addMedia hd key name lines c).1 := by
  intro H
  obtain ⟨a, old, new, b, h1, _, h3, _⟩ := H "[Fonts]".toList "fontname".toList "a".toList [] []
  have ha : a = [] := by
    have := h1.symm
    simp only [List.append_eq_nil_iff] at this
    exact this.1.1
  rw [ha] at h3
  revert h3
  decide +kernel

end Verif.Props.Report
