import Verif.Lemmas.Tracked
/-!
# C162 — a document says when it has unsaved changes; C163 — the cursor that it tracks
-/
namespace Verif.Props.Tracked
open Verif Verif.Doc Verif.Pos Verif.Tracked Verif.Spec.Tracked

/-! ## C162 -/

/-- Acts that write the file. -/
def Saves : Act → Prop
  | .save _ => True
  | .saveTo _ _ => True
  | _ => False

/-- `Since d fs w`: what can become of a document and the files; `w` is the text that was loaded or, after that, saved last. -/
inductive Since (cfg : Config) : TDoc → Files → Str → Prop
  | content (s : Str) (fs : Files) : Since cfg (fromContent cfg s) fs s
  | file {p s : Str} {fs : Files} {d : TDoc} : fs p = some s → fromFile cfg fs p = some d → Since cfg d fs s
  | saved {d d' : TDoc} {fs fs' : Files} {w : Str} (a : Act) : Since cfg d fs w → Saves a → step d fs a = (.ok (), d', fs') →
      Since cfg d' fs' d.text
  | other {d d' : TDoc} {fs fs' : Files} {w : Str} {o : Outcome Unit} (a : Act) : Since cfg d fs w → ¬ (Saves a ∧ o = .ok ()) →
      step d fs a = (o, d', fs') → Since cfg d' fs' w

theorem step_marked (d : TDoc) (fs : Files) (a : Act) (h : ¬ (Saves a ∧ (step d fs a).1 = .ok ())) : Marked d (step d fs a).2.1 := by
  cases a with
  | insert pos t => exact insert_marked d pos t
  | delete r => exact delete_marked d r
  | replace r t => exact replace_marked d r t
  | exec c => exact exec_marked d c
  | undo => exact undo_marked d
  | redo => exact redo_marked d
  | setCursor c => exact Or.inr ⟨rfl, rfl⟩
  | setPath p => exact Or.inr ⟨rfl, rfl⟩
  | save f =>
    show Marked d (save d fs f).2.1
    have h' : (save d fs f).1 ≠ .ok () := fun e => h ⟨trivial, e⟩
    unfold save at h' ⊢
    cases hp : d.path with
    | none => exact Or.inr ⟨rfl, rfl⟩
    | some p =>
      rw [hp] at h'
      cases f with
      | none => exact absurd rfl h'
      | some x => exact Or.inr ⟨rfl, rfl⟩
  | saveTo p f =>
    cases f with
    | none => exact absurd ⟨trivial, rfl⟩ h
    | some x => exact Or.inr ⟨rfl, rfl⟩

/-- **C162.** Whatever has been done with a document: if it says that it has no unsaved changes, then its text is the one that was loaded
or saved last. -/
theorem C162_unsaved {cfg : Config} {d : TDoc} {fs : Files} {w : Str} (h : Since cfg d fs w) : d.modified = false → d.text = w := by
  induction h with
  | content s fs => intro _; rfl
  | @file p s fs d h1 h2 =>
    intro _
    unfold fromFile at h2
    rw [h1] at h2
    injection h2 with h2
    rw [← h2]
    rfl
  | @saved d d' fs fs' w a _ hs hst ih =>
    intro _
    cases a with
    | save f =>
      replace hst : save d fs f = (.ok (), d', fs') := hst
      unfold save at hst
      cases hp : d.path with
      | none => rw [hp] at hst; injection hst with e _; cases e
      | some p =>
        rw [hp] at hst
        cases f with
        | none => injection hst with _ e; injection e with e _; rw [← e]
        | some x => injection hst with e _; cases e
    | saveTo p f =>
      cases f with
      | none => injection hst with _ e; injection e with e _; rw [← e]
      | some x => injection hst with e _; cases e
    | _ => exact absurd hs (by simp [Saves])
  | @other d d' fs fs' w o a _ hn hst ih =>
    intro hm
    have hk := step_marked d fs a (by rw [hst]; exact hn)
    rw [hst] at hk
    rcases hk with hk | ⟨k1, k2⟩
    · rw [hm] at hk; cases hk
    · exact k1.trans (ih (k2 ▸ hm))

/-- A document with the text `ab`, and no files. -/
def exDoc : TDoc := fromContent ⟨50, 0, 100⟩ "ab".toList

set_option maxRecDepth 20000 in
example : (step exDoc (fun _ => none) (.insert 1 "x".toList)).2.1.modified = true ∧
    (step (step exDoc (fun _ => none) (.insert 1 "x".toList)).2.1 (fun _ => none) (.saveTo "f".toList none)).2.1.modified = false := by
  decide

/-- **C162.** A save that succeeds leaves exactly the text in the file, touches no other file, and the document knows its path and has no
unsaved changes; opening the file gives a document with this text and without unsaved changes. -/
theorem C162_save (cfg : Config) (d d' : TDoc) (fs fs' : Files) (p : Str) (f : Option (Option Str)) (h : saveTo d fs p f = (.ok (), d', fs')) :
    fs' p = some d.text ∧ (∀ q, q ≠ p → fs' q = fs q) ∧ d'.text = d.text ∧ d'.modified = false ∧ d'.path = some p ∧
    ∃ e, fromFile cfg fs' p = some e ∧ e.text = d.text ∧ e.modified = false ∧ e.path = some p := by
  cases f with
  | some x => injection h with e _; cases e
  | none =>
    injection h with _ h
    injection h with h1 h2
    subst h1 h2
    refine ⟨by simp, fun q hq => by simp [hq], rfl, rfl, rfl, ?_⟩
    unfold fromFile
    simp only [if_true, Option.map_some]
    exact ⟨_, rfl, rfl, rfl, rfl⟩

/-- **C162.** `save` writes to the path of the document, and fails if there is none. -/
theorem C162_save_path (d : TDoc) (fs : Files) (f : Option (Option Str)) :
    (∀ p, d.path = some p → save d fs f = saveTo d fs p f) ∧ (d.path = none → save d fs f = (.err, d, fs)) := by
  unfold save
  constructor
  · intro p hp; rw [hp]
  · intro hp; rw [hp]

/-- Acts that neither fail to write nor give the document another path. -/
def Calm : Act → Prop
  | .save f => f = none
  | .saveTo _ f => f = none
  | .setPath _ => False
  | _ => True

/-- `Kept d fs`: what can become of a document and the files by such acts alone. -/
inductive Kept (cfg : Config) : TDoc → Files → Prop
  | content (s : Str) (fs : Files) : Kept cfg (fromContent cfg s) fs
  | file {p : Str} {fs : Files} {d : TDoc} : fromFile cfg fs p = some d → Kept cfg d fs
  | act {d : TDoc} {fs : Files} (a : Act) : Kept cfg d fs → Calm a → Kept cfg (step d fs a).2.1 (step d fs a).2.2

theorem step_path (d : TDoc) (fs : Files) (a : Act) (h : Calm a) (hs : ¬ Saves a) :
    (step d fs a).2.1.path = d.path ∧ (step d fs a).2.2 = fs := by
  cases a with
  | insert pos t => exact ⟨insert_path d pos t, rfl⟩
  | delete r => exact ⟨delete_path d r, rfl⟩
  | replace r t => exact ⟨replace_path d r t, rfl⟩
  | exec c => exact ⟨exec_path d c, rfl⟩
  | undo => exact ⟨undo_path d, rfl⟩
  | redo => exact ⟨redo_path d, rfl⟩
  | setCursor c => exact ⟨rfl, rfl⟩
  | setPath p => exact absurd h (by simp [Calm])
  | save f => exact absurd trivial hs
  | saveTo p f => exact absurd trivial hs

/-- **C162 (part).** If no save fails and the path is not set by hand, a document without unsaved changes that has a path is what its file
contains.  Missing: saves that fail (`C162_failed_violated`) and other paths (`C162_path_violated`). -/
theorem C162_file_partial {cfg : Config} {d : TDoc} {fs : Files} (h : Kept cfg d fs) :
    d.modified = false → ∀ p, d.path = some p → fs p = some d.text := by
  induction h with
  | content s fs => intro _ p hp; cases hp
  | @file q fs d h =>
    intro _ p hp
    unfold fromFile at h
    cases hq : fs q with
    | none => rw [hq] at h; cases h
    | some s =>
      rw [hq] at h
      injection h with h
      subst h
      injection hp with hp
      subst hp
      exact hq
  | @act d fs a _ hc ih =>
    by_cases hs : Saves a
    · cases a with
      | save f =>
        obtain rfl : f = none := hc
        show (save d fs none).2.1.modified = false → ∀ p, (save d fs none).2.1.path = some p → (save d fs none).2.2 p = some (save d fs none).2.1.text
        unfold save
        cases hp : d.path with
        | none => dsimp only; intro h p hp'; exact ih h p hp'
        | some q =>
          intro _ p hp'
          injection hp' with hp'
          subst hp'
          simp [saveTo]
      | saveTo q f =>
        obtain rfl : f = none := hc
        intro _ p hp'
        injection hp' with hp'
        subst hp'
        simp [step, saveTo]
      | _ => exact absurd hs (by simp [Saves])
    · obtain ⟨k1, k2⟩ := step_path d fs a hc hs
      have hk := step_marked d fs a (fun h => hs h.1)
      intro hm p hp
      rw [k1] at hp
      rw [k2]
      rcases hk with hk | ⟨k3, k4⟩
      · rw [hm] at hk; cases hk
      · rw [k3]; exact ih (k4 ▸ hm) p hp

example : Kept ⟨50, 0, 100⟩ (step (step exDoc (fun _ => none) (.saveTo "f".toList none)).2.1
    (step exDoc (fun _ => none) (.saveTo "f".toList none)).2.2 (.setCursor (some 1))).2.1
    (step exDoc (fun _ => none) (.saveTo "f".toList none)).2.2 :=
  .act (.setCursor (some 1)) (.act (.saveTo "f".toList none) (.content _ _) rfl) trivial

/-- **C162, disagreement.** A save that fails can destroy the file (`fs::write` empties it first), and a document that had no unsaved
changes still says that it has none. -/
theorem C162_failed_violated : ¬ ∀ (cfg : Config) (d : TDoc) (fs : Files) (w : Str), Since cfg d fs w → d.modified = false →
    ∀ p, d.path = some p → fs p = some d.text := by
  intro H
  let fs0 : Files := fun _ => some "ab".toList
  have h1 : Since ⟨50, 0, 100⟩ { exDoc with path := some "f".toList } fs0 "ab".toList := .file (p := "f".toList) rfl rfl
  have h2 := Since.other (.save (some (some []))) h1 (o := .err) (d' := { exDoc with path := some "f".toList })
    (fs' := fun q => if q = "f".toList then some [] else fs0 q) (fun h => by cases h.2) rfl
  have := H _ _ _ _ h2 rfl "f".toList rfl
  rw [if_pos rfl] at this
  cases this

/-- **C162, disagreement.** Giving a document another path leaves it without unsaved changes, though the file there is another. -/
theorem C162_path_violated : ¬ ∀ (cfg : Config) (d : TDoc) (fs : Files) (p : Str), Since cfg d fs d.text → d.modified = false →
    d.path = some p → fs p = some d.text := by
  intro H
  have h1 : Since ⟨50, 0, 100⟩ exDoc (fun _ => none) "ab".toList := .content _ _
  have h2 := Since.other (.setPath (some "g".toList)) h1 (o := .ok ()) (fun h => h.1) rfl
  exact nomatch H _ _ _ "g".toList h2 rfl rfl

/-- **C162, disagreement.** A document can say that it has unsaved changes though its text is the saved one: undoing the changes does not
take the mark back. -/
theorem C162_undo_violated : ¬ ∀ (cfg : Config) (d : TDoc) (fs : Files), Since cfg d fs d.text → d.modified = false := by
  intro H
  have h1 : Since ⟨50, 0, 100⟩ exDoc (fun _ => none) "ab".toList := .content _ _
  have h2 := Since.other (.insert 1 "x".toList) h1 (o := (step exDoc (fun _ => none) (.insert 1 "x".toList)).1) (fun h => h.1) rfl
  have h3 := Since.other .undo h2 (o := _) (fun h => h.1) rfl
  have e : (undo (step exDoc (fun _ => none) (.insert 1 "x".toList)).2.1).2.text = "ab".toList ∧
      (undo (step exDoc (fun _ => none) (.insert 1 "x".toList)).2.1).2.modified = true := by decide +kernel
  have h4 := H _ _ _ (e.1 ▸ h3)
  exact absurd (h4.symm.trans e.2) (by decide)

end Verif.Props.Tracked
