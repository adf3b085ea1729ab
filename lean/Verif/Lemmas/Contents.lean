import Verif.Lemmas.Script
import Verif.Lemmas.StyleCmd
import Verif.Spec.Update
/-! What the lines of a section say, as functions: the relations of `Spec.Script` determine it. -/
namespace Verif.Contents
open Verif
open Verif.Ast
open Verif.Parser
open Verif.Spec.Script
open Verif.Spec.InfoCmd (Stripped)

theorem says_trim {l x : Str} (h : Says l x) : trim l = x ∧ ignored l = false := by
  refine ⟨Handlers.stripped_eq h.2, ?_⟩
  cases hi : ignored l with
  | false => rfl
  | true => exact absurd (ignored_spec.1 hi) h.1

/-- The fields of one line. -/
def infoLine (l : Str) : List (Str × Str) :=
  if ignored l then [] else match splitOnce ':' (trim l) with
    | some (k, v) => [(trim k, trim v)]
    | none => []

theorem infoOf_eq {L : List Line} {fs : List (Str × Str)} (h : InfoOf L fs) : fs = L.flatMap infoLine := by
  induction h with
  | nil => rfl
  | silent h _ ih => rw [List.flatMap_cons, ← ih, infoLine, if_pos (ignored_spec.2 h)]; rfl
  | field h1 h2 h3 h4 _ ih =>
    obtain ⟨e1, e2⟩ := says_trim h1
    rw [List.flatMap_cons, ← ih, infoLine, if_neg (by simp [e2]), e1, splitOnce_append _ h2]
    simp only [Handlers.stripped_eq h3, Handlers.stripped_eq h4, List.singleton_append]
  | @other l ls fs x h1 h2 _ ih =>
    obtain ⟨e1, e2⟩ := says_trim h1
    have : splitOnce ':' x = none := by
      cases e : splitOnce ':' x with
      | none => rfl
      | some p => exact absurd (by rw [(splitOnce_some e).1]; simp) h2
    rw [List.flatMap_cons, ← ih, infoLine, if_neg (by simp [e2]), e1, this]
    rfl

theorem names_eq {d : Str} {names : List Str} (h : Names d names) : names = formatFields d := by
  obtain ⟨parts, h1, h2, h3, h4, h5⟩ := h
  unfold formatFields
  have : splitOn ',' d = parts := by
    rw [h2]
    exact StyleCmd.splitOn_csv h1 h3
  rw [this]
  clear h1 h2 h3 this
  induction parts generalizing names with
  | nil => cases names with
    | nil => rfl
    | cons => simp at h4
  | cons p parts ih => cases names with
    | nil => simp at h4
    | cons n names =>
      rw [List.map_cons, ← ih (by simpa using h4) (fun q hq => h5 q (by simp [hq]))]
      rw [Handlers.stripped_eq (h5 (p, n) (by simp))]

/-- The events of some lines, and the format after them. -/
def eventsC : Option (List Str) → List Str → List Event × Option (List Str)
  | f, [] => ([], f)
  | f, l :: ls =>
    if ignored l then eventsC f ls
    else match stripPrefix "Format:".toList (trim l) with
      | some d => eventsC (some (formatFields d)) ls
      | none => match parseEvent (trim l) (f.getD []) with
        | some e => (e :: (eventsC f ls).1, (eventsC f ls).2)
        | none => eventsC f ls

theorem event_not_format {x : Str} {f : List Str} {e : Event} (h : parseEvent x f = some e) : stripPrefix "Format:".toList x = none := by
  rw [stripPrefix_eq_none]
  rintro d rfl
  have : eventKind ("Format:".toList ++ d) = none := by rfl
  unfold parseEvent at h
  rw [this] at h
  cases h

theorem eventsOf_eq {f g : Option (List Str)} {o : Nat} {L : List Line} {l : List (Event × Nat × Nat)} (h : EventsOf f o L l g) :
    (l.map (fun x => x.1), g) = eventsC f L := by
  induction h with
  | nil => rfl
  | silent h _ ih => rw [eventsC, if_pos (ignored_spec.2 h), ← ih]
  | format h1 h2 _ ih =>
    obtain ⟨e1, e2⟩ := says_trim h1
    rw [eventsC, if_neg (by simp [e2]), e1, stripPrefix_append]
    simp only [← names_eq h2]
    exact ih
  | event h1 h2 _ _ ih =>
    obtain ⟨e1, e2⟩ := says_trim h1
    rw [eventsC, if_neg (by simp [e2]), e1, event_not_format h2, h2, ← ih]
    rfl
  | other h1 h2 h3 _ ih =>
    obtain ⟨e1, e2⟩ := says_trim h1
    rw [eventsC, if_neg (by simp [e2]), e1, stripPrefix_eq_none.2 h2, h3]
    exact ih

/-- The styles of some lines, and the format after them. -/
def stylesC : Option (List Str) → List Str → List Style × Option (List Str)
  | f, [] => ([], f)
  | f, l :: ls =>
    if ignored l then stylesC f ls
    else match stripPrefix "Format:".toList (trim l) with
      | some d => stylesC (some (formatFields d)) ls
      | none => match stripPrefix "Style:".toList (trim l) with
        | none => stylesC f ls
        | some d => match parseStyle (trim d) (f.getD []) with
          | some e => (e :: (stylesC f ls).1, (stylesC f ls).2)
          | none => stylesC f ls

theorem style_not_format (d : Str) : stripPrefix "Format:".toList ("Style:".toList ++ d) = none := by rfl

theorem stylesOf_eq {f g : Option (List Str)} {o : Nat} {L : List Line} {l : List (Style × Nat × Nat)} (h : StylesOf f o L l g) :
    (l.map (fun x => x.1), g) = stylesC f L := by
  induction h with
  | nil => rfl
  | silent h _ ih => rw [stylesC, if_pos (ignored_spec.2 h), ← ih]
  | format h1 h2 _ ih =>
    obtain ⟨e1, e2⟩ := says_trim h1
    rw [stylesC, if_neg (by simp [e2]), e1, stripPrefix_append]
    simp only [← names_eq h2]
    exact ih
  | style h1 h2 h3 _ _ ih =>
    obtain ⟨e1, e2⟩ := says_trim h1
    rw [stylesC, if_neg (by simp [e2]), e1, style_not_format, stripPrefix_append]
    simp only [Handlers.stripped_eq h2, h3, ← ih]
    rfl
  | short h1 h2 h3 _ ih =>
    obtain ⟨e1, e2⟩ := says_trim h1
    rw [stylesC, if_neg (by simp [e2]), e1, style_not_format, stripPrefix_append]
    simp only [Handlers.stripped_eq h2, h3]
    exact ih
  | other h1 h2 h3 _ ih =>
    obtain ⟨e1, e2⟩ := says_trim h1
    rw [stylesC, if_neg (by simp [e2]), e1, stripPrefix_eq_none.2 h2, stripPrefix_eq_none.2 h3]
    exact ih

theorem data_bin {key : Str} {ds d : List Line} (h : Data ds d) : ∀ (e : Str × List Str) (ls : List Str),
    binLines key (some e) (ds ++ ls) = binLines key (some (e.1, e.2 ++ d)) ls := by
  induction h with
  | nil => intro e ls; simp
  | @line l ls' d h1 h2 _ ih =>
    intro e ls
    have g1 : ends l = false := by cases x : ends l with | false => rfl | true => exact absurd (ends_spec.1 x) h1
    have g2 : dropped l = false := by cases x : dropped l with | false => rfl | true => exact absurd (dropped_spec.1 x) h2
    rw [List.cons_append, binLines, if_neg (by simp [g1]), if_neg (by simp [g2]), ih]
    simp
  | @remark l ls' d h1 h2 _ ih =>
    intro e ls
    have g1 : ends l = false := by cases x : ends l with | false => rfl | true => exact absurd (ends_spec.1 x) h1
    rw [List.cons_append, binLines, if_neg (by simp [g1]), if_pos (dropped_spec.2 h2), ih]

theorem filesOf_eq {key : Str} (hk : GoodKey key) {L : List Line} {fs : List (Str × List Line)} (h : FilesOf key L fs) : fs = binLines key none L := by
  induction h with
  | nil => rfl
  | @other l ls fs h _ ih =>
    have : header key l = none := by
      cases e : header key l with
      | none => rfl
      | some n => exact absurd (header_spec.1 e) (h n)
    rw [binLines, this]
    exact ih
  | @file l n ds d ls fs h1 h2 h3 _ ih =>
    rw [binLines, header_spec.2 h1, Option.map_some, data_bin h2, ih, List.nil_append]
    cases ls with
    | nil => rfl
    | cons m ls =>
      have := ends_spec.2 (h3 m rfl)
      conv => rhs; rw [binLines, if_pos this]
      rw [binLines, header_ends hk this]
      rfl

/-! ## A blank line at the end -/

theorem ignored_nil : ignored [] = true := ignored_spec.2 (.inl (by simp))

theorem info_blank (L : List Str) : (L ++ [[]]).flatMap infoLine = L.flatMap infoLine := by
  rw [List.flatMap_append]
  have : [[]].flatMap infoLine = [] := by
    simp [infoLine, ignored_nil]
  rw [this, List.append_nil]

theorem events_blank (L : List Str) : ∀ f, eventsC f (L ++ [[]]) = eventsC f L := by
  induction L with
  | nil => intro f; rw [List.nil_append, show eventsC f [[]] = if ignored [] then eventsC f [] else _ from rfl, if_pos ignored_nil]
  | cons l L ih =>
    intro f
    rw [List.cons_append, eventsC, eventsC]
    simp only [ih]

theorem styles_blank (L : List Str) : ∀ f, stylesC f (L ++ [[]]) = stylesC f L := by
  induction L with
  | nil => intro f; rw [List.nil_append, show stylesC f [[]] = if ignored [] then stylesC f [] else _ from rfl, if_pos ignored_nil]
  | cons l L ih =>
    intro f
    rw [List.cons_append, stylesC, stylesC]
    simp only [ih]

theorem files_blank {key : Str} (hk : GoodKey key) (L : List Str) : ∀ e, binLines key e (L ++ [[]]) = binLines key e L := by
  induction L with
  | nil =>
    intro e
    cases e with
    | none => rw [List.nil_append, binLines_white hk (by simp)]; rfl
    | some e => rw [List.nil_append, binLines_white' hk e (by simp)]; rfl
  | cons l L ih =>
    intro e
    cases e with
    | none => rw [List.cons_append, binLines, binLines, ih]
    | some e => rw [List.cons_append, binLines, binLines]; simp only [ih]

end Verif.Contents
