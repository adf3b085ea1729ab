import Verif.Model.IssueText
import Verif.Props.EditorError
/-!
# C173 — what is shown of an issue tells what it is
-/
namespace Verif.Props.IssueText
open Verif Verif.IssueText Verif.Props.EditorError
open Verif.ErrorInfo (Severity)

theorem cat_text {a b : Category} (h : a.text = b.text) : a = b := by
  cases a <;> cases b <;> first | rfl | exact absurd h (by decide)

theorem cat_plain (a : Category) : ']' ∉ a.text ∧ ∃ c t, a.text = c :: t ∧ c.isDigit = false := by
  cases a <;> exact ⟨by decide, _, _, rfl, by decide⟩

theorem sev_text {a b : Severity} (h : sevText a = sevText b) : a = b := by
  cases a <;> cases b <;> first | rfl | exact absurd h (by decide)

theorem sev_plain (a : Severity) : ':' ∉ sevText a := by cases a <;> decide

/-- What comes after the place. -/
def after (i : Issue) : Str :=
  i.category.text ++ ']' :: (' ' :: (sevText i.severity ++ ':' :: (' ' :: (i.message ++ (match i.suggestion with
     | none => []
     | some s => "\n  Suggestion: ".toList ++ s)))))

theorem display_eq (i : Issue) : i.display = '[' :: (showNat i.line ++ ((match i.column with | none => [] | some c => ':' :: showNat c) ++ ':' :: after i)) := by
  unfold Issue.display Issue.location after
  cases i.column <;> cases i.suggestion <;> simp

theorem after_head (i : Issue) : ∃ c t, after i = c :: t ∧ c.isDigit = false := by
  obtain ⟨_, c, t, h, hc⟩ := cat_plain i.category
  unfold after
  rw [h]
  exact ⟨c, _, rfl, hc⟩

theorem digit_head (n : Nat) (x : Str) : ∃ c t, showNat n ++ x = c :: t ∧ c.isDigit = true := by
  have h := showNat_digits n
  cases hs : showNat n with
  | nil => exact absurd hs (showNat_ne_nil n)
  | cons c t => rw [hs] at h; exact ⟨c, t ++ x, rfl, h c (by simp)⟩

/-- The message with the suggestion. -/
def words (i : Issue) : Str := i.message ++ (match i.suggestion with
     | none => []
     | some s => "\n  Suggestion: ".toList ++ s)

/-- **C173.** What is shown of two issues is the same only if they have the same place, category and severity, and their messages with the
suggestions are the same. -/
theorem C173_shown (a b : Issue) : a.display = b.display ↔
    a.line = b.line ∧ a.column = b.column ∧ a.category = b.category ∧ a.severity = b.severity ∧ words a = words b := by
  constructor
  · intro h
    rw [display_eq, display_eq] at h
    have h := (List.cons.inj h).2
    have hd : ∀ i : Issue, ∀ c ∈ ((match i.column with | none => ([] : Str) | some c => ':' :: showNat c) ++ ':' :: after i).head?, c.isDigit = false := by
      intro i c hc
      cases hi : i.column with
      | none => rw [hi] at hc; simp at hc; subst hc; decide
      | some x => rw [hi] at hc; simp at hc; subst hc; decide
    obtain ⟨h1, h⟩ := num_cut (hd a) (hd b) h
    have rest : a.column = b.column ∧ after a = after b := by
      obtain ⟨ca, ta, ea, da⟩ := after_head a
      obtain ⟨cb, tb, eb, db⟩ := after_head b
      cases ha : a.column with
      | none =>
        cases hb : b.column with
        | none => rw [ha, hb] at h; exact ⟨rfl, (List.cons.inj h).2⟩
        | some y =>
          rw [ha, hb] at h
          have h : after a = showNat y ++ ':' :: after b := (List.cons.inj h).2
          obtain ⟨c, t, e, d⟩ := digit_head y (':' :: after b)
          rw [e, ea] at h
          rw [(List.cons.inj h).1, d] at da
          cases da
      | some x =>
        cases hb : b.column with
        | none =>
          rw [ha, hb] at h
          have h : showNat x ++ ':' :: after a = after b := (List.cons.inj h).2
          obtain ⟨c, t, e, d⟩ := digit_head x (':' :: after a)
          rw [e, eb] at h
          rw [← (List.cons.inj h).1, d] at db
          cases db
        | some y =>
          rw [ha, hb] at h
          have h : showNat x ++ ':' :: after a = showNat y ++ ':' :: after b := (List.cons.inj h).2
          obtain ⟨e, h⟩ := num_cut (by intro c hc; simp at hc; subst hc; decide) (by intro c hc; simp at hc; subst hc; decide) h
          rw [e]
          exact ⟨rfl, (List.cons.inj h).2⟩
    obtain ⟨h2, h⟩ := rest
    unfold after at h
    obtain ⟨h3, h⟩ := cut (cat_plain _).1 (cat_plain _).1 h
    obtain ⟨h4, h⟩ := cut (sev_plain _) (sev_plain _) (List.cons.inj h).2
    exact ⟨h1, h2, cat_text h3, sev_text h4, (List.cons.inj h).2⟩
  · rintro ⟨h1, h2, h3, h4, h5⟩
    rw [display_eq, display_eq, h1, h2]
    unfold after
    unfold words at h5
    rw [h3, h4, h5]

/-- **C173, partial.** Issues whose messages are of one line are told apart by what is shown, but for the stretch of text they are about.

Missing: that stretch (it is not shown), messages with line breaks (see `C173_break_violated`). -/
theorem C173_told_partial {a b : Issue} (ha : '\n' ∉ a.message) (hb : '\n' ∉ b.message) (h : a.display = b.display) : { a with span := b.span } = b := by
  obtain ⟨h1, h2, h3, h4, h5⟩ := (C173_shown a b).1 h
  have key : a.message = b.message ∧ a.suggestion = b.suggestion := by
    unfold words at h5
    cases sa : a.suggestion with
    | none =>
      cases sb : b.suggestion with
      | none => rw [sa, sb] at h5; simpa using h5
      | some y =>
        rw [sa, sb] at h5
        have h5 : a.message ++ [] = b.message ++ '\n' :: ("  Suggestion: ".toList ++ y) := h5
        rw [List.append_nil] at h5
        exact absurd (by rw [h5]; simp) ha
    | some x =>
      cases sb : b.suggestion with
      | none =>
        rw [sa, sb] at h5
        have h5 : a.message ++ '\n' :: ("  Suggestion: ".toList ++ x) = b.message ++ [] := h5
        rw [List.append_nil] at h5
        exact absurd (by rw [← h5]; simp) hb
      | some y =>
        rw [sa, sb] at h5
        obtain ⟨e1, e2⟩ := cut ha hb (show a.message ++ '\n' :: ("  Suggestion: ".toList ++ x) = b.message ++ '\n' :: ("  Suggestion: ".toList ++ y) from h5)
        exact ⟨e1, by rw [List.append_cancel_left e2]⟩
  obtain ⟨h6, h7⟩ := key
  cases a
  cases b
  simp only at h1 h2 h3 h4 h6 h7
  subst h1 h2 h3 h4 h6 h7
  rfl

example : ((Issue.withLocation .warning .timing "End before start".toList 12 7 (100, 120)).withSuggestion "Swap".toList).display =
    "[12:7:timing] warning: End before start\n  Suggestion: Swap".toList := by decide +kernel

/-- **C173, disagreement.** A message of two lines may look like a message with a suggestion; and the stretch of text is not shown. -/
theorem C173_break_violated :
    (Issue.new .info .font "a\n  Suggestion: b".toList 1).display = ((Issue.new .info .font "a".toList 1).withSuggestion "b".toList).display ∧
    (Issue.withLocation .info .font "a".toList 1 1 (0, 1)).display = (Issue.withLocation .info .font "a".toList 1 1 (0, 2)).display := by decide +kernel

theorem shape (x y : Str) : '[' :: (x ++ ']' :: (' ' :: (sevText .critical ++ ':' :: (' ' :: y)))) = '[' :: (x ++ "] critical: ".toList ++ y) := by
  have e : "] critical: ".toList = ']' :: ' ' :: (sevText .critical ++ [':', ' ']) := by decide +kernel
  rw [e, List.append_assoc, List.cons_append, List.cons_append, List.append_assoc, List.cons_append, List.cons_append, List.nil_append]

/-- **C173.** An issue blocks just when it is shown as critical. -/
theorem C173_blocking (i : Issue) : i.isBlocking = true ↔
    ∃ x y, i.display = '[' :: (x ++ "] critical: ".toList ++ y) ∧ ']' ∉ x := by
  have hx : ∀ i : Issue, ']' ∉ showNat i.line ++ ((match i.column with | none => [] | some c => ':' :: showNat c) ++ ':' :: i.category.text) := by
    intro i hm
    have dig : ∀ n : Nat, ']' ∉ showNat n := fun n hn => absurd (showNat_digits n _ hn) (by decide)
    rcases List.mem_append.1 hm with hm | hm
    · exact dig _ hm
    · rcases List.mem_append.1 hm with hm | hm
      · cases hc : i.column with
        | none => rw [hc] at hm; cases hm
        | some c =>
          rw [hc] at hm
          rcases List.mem_cons.1 hm with hm | hm
          · cases hm
          · exact dig _ hm
      · rcases List.mem_cons.1 hm with hm | hm
        · cases hm
        · exact (cat_plain _).1 hm
  have hd : i.display = '[' :: ((showNat i.line ++ ((match i.column with | none => [] | some c => ':' :: showNat c) ++ ':' :: i.category.text)) ++
      ']' :: (' ' :: (sevText i.severity ++ ':' :: (' ' :: words i)))) := by
    rw [display_eq]
    unfold after words
    cases i.column <;> cases i.suggestion <;> simp
  constructor
  · intro h
    have h : i.severity = .critical := by simpa only [Issue.isBlocking, decide_eq_true_eq] using h
    rw [h] at hd
    exact ⟨_, words i, hd.trans (shape _ _), hx i⟩
  · rintro ⟨x, y, h, hn⟩
    rw [hd, ← shape] at h
    have h := (List.cons.inj h).2
    obtain ⟨_, h⟩ := cut (hx i) hn h
    obtain ⟨h, _⟩ := cut (sev_plain _) (by decide) (List.cons.inj h).2
    unfold Issue.isBlocking
    exact decide_eq_true (sev_text (b := .critical) h)

example : (Issue.new .critical .security "Too deep".toList 3).display = '[' :: ("3:security".toList ++ "] critical: ".toList ++ "Too deep".toList) ∧
    (Issue.new .critical .security "Too deep".toList 3).isBlocking = true := by decide +kernel

end Verif.Props.IssueText
