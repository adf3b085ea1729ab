import Verif.Model.ErrorInfo
import Verif.Spec.ErrorInfo
/-!
# C159 — what errors and collections of issues say
-/
namespace Verif.Props.ErrorInfo
open Verif Verif.ErrorInfo
open Verif.Spec.ErrorInfo

theorem says_at {w : String} {a : Str} (hw : w.toList = a ++ " at line ".toList) (n : Nat) : SaysLine (at_ w n) n :=
  ⟨a, [], by rw [at_, hw, List.append_nil]; rfl, Or.inl rfl⟩

theorem says_why {w : String} {a : Str} (hw : w.toList = a ++ " at line ".toList) (n : Nat) {m b : Str} (hm : m = at_ w n ++ ':' :: b) :
    SaysLine m n := ⟨a, ':' :: b, by rw [hm, at_, hw]; rfl, Or.inr ⟨b, rfl⟩⟩

theorem says_more {m m' : Str} {n : Nat} (p : Str) (hm : m' = p ++ m) (h : SaysLine m n) : SaysLine m' n := by
  obtain ⟨a, b, rfl, hb⟩ := h
  exact ⟨p ++ a, b, by rw [hm]; simp only [List.append_assoc], hb⟩

theorem colon (a r : Str) : a ++ ": ".toList ++ r = a ++ ':' :: (' ' :: r) := by
  rw [List.append_assoc]; rfl

theorem quoted (a v x r : Str) : a ++ v ++ x ++ ": ".toList ++ r = (a ++ v) ++ (x ++ ':' :: (' ' :: r)) := by
  simp only [List.append_assoc]; rfl

theorem says_expectedHeader (n : Nat) : SaysLine (ParseError.text (.expectedHeader n)) n := says_at (a := "Expected section header like [Script Info]".toList) (by decide) n

theorem says_unclosedHeader (n : Nat) : SaysLine (ParseError.text (.unclosedHeader n)) n := says_why (a := "Unclosed section header".toList) (w := "Unclosed section header at line ") (by decide) n (b := " missing ']'".toList) rfl

theorem says_unknownSection (s : Str) (n : Nat) : SaysLine (ParseError.text (.unknownSection s n)) n := says_more ("Unknown section '".toList ++ s) rfl (says_at (a := ['\'']) (by decide) n)

theorem says_fieldFormat (n : Nat) : SaysLine (ParseError.text (.fieldFormat n)) n := says_why (a := "Invalid field format".toList) (w := "Invalid field format at line ") (by decide) n (b := " expected 'key: value'".toList) rfl

theorem says_formatLine (n : Nat) (r : Str) : SaysLine (ParseError.text (.formatLine n r)) n := says_why (a := "Invalid format line".toList) (w := "Invalid format line at line ") (by decide) n (colon _ r)

theorem says_override (n : Nat) (r : Str) : SaysLine (ParseError.text (.override n r)) n := says_why (a := "Invalid style override".toList) (w := "Invalid style override at line ") (by decide) n (colon _ r)

theorem says_drawing (n : Nat) (r : Str) : SaysLine (ParseError.text (.drawing n r)) n := says_why (a := "Invalid drawing command".toList) (w := "Invalid drawing command at line ") (by decide) n (colon _ r)

theorem says_uuDecode (n : Nat) (r : Str) : SaysLine (ParseError.text (.uuDecode n r)) n := says_why (a := "UU-decode error".toList) (w := "UU-decode error at line ") (by decide) n (colon _ r)

theorem says_internal (n : Nat) (r : Str) : SaysLine (ParseError.text (.internal n r)) n := says_why (a := "Internal parser error".toList) (w := "Internal parser error at line ") (by decide) n (colon _ r)

theorem says_time (v : Str) (n : Nat) (r : Str) : SaysLine (ParseError.text (.time v n r)) n := says_more ("Invalid time format '".toList ++ v) (quoted _ v _ r) (says_why (a := ['\'']) (w := "' at line ") (by decide) n rfl)

theorem says_color (v : Str) (n : Nat) (r : Str) : SaysLine (ParseError.text (.color v n r)) n := says_more ("Invalid color format '".toList ++ v) (quoted _ v _ r) (says_why (a := ['\'']) (w := "' at line ") (by decide) n rfl)

theorem says_number (v : Str) (n : Nat) (r : Str) : SaysLine (ParseError.text (.number v n r)) n := says_more ("Invalid numeric value '".toList ++ v) (quoted _ v _ r) (says_why (a := ['\'']) (w := "' at line ") (by decide) n rfl)

theorem says_fieldCount (n a b : Nat) : SaysLine (ParseError.text (.fieldCount n a b)) n := says_why (a := "Field count mismatch".toList) (w := "Field count mismatch at line ") (by decide) n (b := at_ " expected " a ++ at_ ", found " b) (List.append_assoc ..)

theorem says_tooFewFields (a b n : Nat) : SaysLine (ParseError.text (.tooFewFields a b n)) n := says_why (a := "Insufficient fields".toList) (w := "Insufficient fields at line ") (by decide) n (b := at_ " expected " a ++ at_ ", found " b) (List.append_assoc ..)

theorem says_nesting (n l : Nat) : SaysLine (ParseError.text (.nesting n l)) n := says_why (a := "Maximum nesting depth exceeded".toList) (w := "Maximum nesting depth exceeded at line ") (by decide) n (b := at_ " limit is " l) rfl

theorem says_eventType (n : Nat) : SaysLine (ParseError.text (.eventType n)) n := says_why (a := "Invalid event type".toList) (w := "Invalid event type at line ") (by decide) n (b := " expected Dialogue, Comment, Picture, Sound, Movie, or Command".toList) rfl

/-- **C159 (line).** The line number an error gives is the one its message names: `at line n`.
Missing: errors in UTF-8 text, which give a byte position for a line (`C159_utf8_violated`), and the errors of event lines, which
give none although they have one (`C159_event_violated`). -/
theorem C159_line_partial {e : CoreError} {n : Nat} (hu : ∀ p m, e ≠ .utf8 p m) (h : e.lineNumber = some n) : SaysLine e.text n := by
  unfold CoreError.lineNumber at h
  split at h <;> cases h
  · exact says_more _ rfl (says_expectedHeader n)
  · exact says_more _ rfl (says_unclosedHeader n)
  · exact says_more _ rfl (says_unknownSection _ n)
  · exact says_more _ rfl (says_fieldFormat n)
  · exact says_more _ rfl (says_formatLine n _)
  · exact says_more _ rfl (says_fieldCount n _ _)
  · exact says_more _ rfl (says_time _ n _)
  · exact says_more _ rfl (says_color _ n _)
  · exact says_more _ rfl (says_number _ n _)
  · exact says_more _ rfl (says_override n _)
  · exact says_more _ rfl (says_drawing n _)
  · exact says_more _ rfl (says_uuDecode n _)
  · exact says_more _ rfl (says_nesting n _)
  · exact says_more _ rfl (says_internal n _)
  · exact absurd rfl (hu _ _)

example : SaysLine (CoreError.text (.parse (.time "1:2".toList 37 "no hours".toList))) 37 :=
  C159_line_partial (by intro p m h; cases h) rfl

/-- **C159 fails** for event lines: every line that is refused as an event is refused with an error that names the line in its message,
but gives no line number.  (What is accepted is what `Ast.parseEvent` accepts.) -/
theorem C159_event_violated (line : Str) (format : List Str) (n : Nat) :
    (∀ e, parseEventLine line format n = .ok e ↔ Ast.parseEvent line format = some e) ∧
    ∀ e, parseEventLine line format n = .error e → SaysLine e.text n ∧ (CoreError.parse e).lineNumber = none := by
  unfold parseEventLine Ast.parseEvent
  cases Ast.eventKind line with
  | none =>
    refine ⟨fun e => ⟨fun h => (by cases h), fun h => (by cases h)⟩, ?_⟩
    intro e h; cases h
    exact ⟨says_eventType n, rfl⟩
  | some kd =>
    obtain ⟨k, d⟩ := kd
    dsimp only
    cases Ast.eventData k (trim d) format with
    | ok x =>
      refine ⟨fun e => ⟨fun h => (by cases h; rfl), fun h => (by cases h; rfl)⟩, fun e h => by cases h⟩
    | error x =>
      obtain ⟨a, b⟩ := x
      refine ⟨fun e => ⟨fun h => (by cases h), fun h => (by cases h)⟩, ?_⟩
      intro e h; cases h
      exact ⟨says_tooFewFields b a n, rfl⟩

example : parseEventLine "Dialogue: 0,1".toList [] 7 = .error (.tooFewFields 10 2 7) ∧
    parseEventLine "Style: a".toList [] 7 = .error (.eventType 7) := ⟨rfl, rfl⟩

/-- **C159 fails** for text that is not UTF-8: the line number is the position of the first byte that is wrong. -/
theorem C159_utf8_violated : (∀ m b e, validateUtf8 m b = .error e → ∃ p, Encoding.validateUtf8 b = some p ∧ e.lineNumber = some p) ∧
    (∃ e, validateUtf8 [] [97, 10, 98, 255] = .error e ∧ e.lineNumber = some 3 ∧ lineAt [97, 10, 98, 255] 3 = 2) := by
  refine ⟨?_, .utf8 3 [], rfl, rfl, by decide⟩
  intro m b e h
  unfold validateUtf8 at h
  cases hv : Encoding.validateUtf8 b with
  | none => rw [hv] at h; cases h
  | some p => rw [hv] at h; cases h; exact ⟨p, rfl, rfl⟩

/-- No heading begins another. -/
theorem headings_apart : headings.Pairwise (fun a b => startsWith a.1.toList b.1.toList = false ∧ startsWith b.1.toList a.1.toList = false) := by
  decide

/-- **C159 (category).** The category of an error is that of the words its message begins with, of which no two begin alike. -/
theorem C159_category (e : CoreError) : ∃ h ∈ headings, (∃ rest, e.text = h.1.toList ++ rest) ∧ e.category = h.2 := by
  cases e
  case parse e => exact ⟨("Parse error: ", .parsing), by decide, ⟨_, rfl⟩, rfl⟩
  case tokenization m => exact ⟨("Tokenization error: ", .parsing), by decide, ⟨_, rfl⟩, rfl⟩
  case analysis m => exact ⟨("Analysis error: ", .analysis), by decide, ⟨_, rfl⟩, rfl⟩
  case plugin m => exact ⟨("Plugin error: ", .plugin), by decide, ⟨_, rfl⟩, rfl⟩
  case invalidColor m => exact ⟨("Invalid color format: ", .format), by decide, ⟨_, rfl⟩, rfl⟩
  case invalidNumeric m => exact ⟨("Invalid numeric value: ", .format), by decide, ⟨_, rfl⟩, rfl⟩
  case invalidTime m => exact ⟨("Invalid time format: ", .format), by decide, ⟨_, rfl⟩, rfl⟩
  case utf8 p m => exact ⟨("UTF-8 encoding error at position ", .encoding), by decide, ⟨showNat p ++ ": ".toList ++ m, by
    show at_ _ p ++ _ ++ m = _; unfold at_; simp only [List.append_assoc]⟩, rfl⟩
  case io m => exact ⟨("I/O error: ", .io), by decide, ⟨_, rfl⟩, rfl⟩
  case outOfMemory m => exact ⟨("Memory allocation failed: ", .resource), by decide, ⟨_, rfl⟩, rfl⟩
  case config m => exact ⟨("Configuration error: ", .configuration), by decide, ⟨_, rfl⟩, rfl⟩
  case validation m => exact ⟨("Validation error: ", .validation), by decide, ⟨_, rfl⟩, rfl⟩
  case feature f r => exact ⟨("Feature not supported: ", .compatibility), by decide, ⟨f ++ (" (requires feature '".toList ++ (r ++ "')".toList)), by
    show "Feature not supported: ".toList ++ f ++ _ ++ r ++ _ = _; simp only [List.append_assoc]⟩, rfl⟩
  case version m => exact ⟨("Version incompatibility: ", .compatibility), by decide, ⟨_, rfl⟩, rfl⟩
  case limit r c l => exact ⟨("Resource limit exceeded: ", .resource), by decide, ⟨r ++ (at_ " (" c ++ (at_ "/" l ++ ")".toList)), by
    show "Resource limit exceeded: ".toList ++ r ++ _ ++ _ ++ _ = _; simp only [List.append_assoc]⟩, rfl⟩
  case security m => exact ⟨("Security policy violation: ", .security), by decide, ⟨_, rfl⟩, rfl⟩
  case internal m => exact ⟨("Internal error: ", .internal), by decide, ⟨m ++ " (this is a bug, please report)".toList, by
    show "Internal error: ".toList ++ m ++ _ = _; simp only [List.append_assoc]⟩, rfl⟩

example : (CoreError.limit "memory".toList 7 5).category = .resource ∧
    (CoreError.limit "memory".toList 7 5).text = "Resource limit exceeded: memory (7/5)".toList := by decide

/-- **C159 (recovery).** From errors of the categories resource, security and internal there is no recovery; from errors of every
other category but parsing there is; the former are the most severe, and nothing the user can mend; a bug is reported as one exactly
by the category.  Missing: parse errors, among which are such as well (`C159_category_violated`). -/
theorem C159_recovery_partial (e : CoreError) :
    (e.category ∈ [.resource, .security, .internal] → e.isRecoverable = false ∧ e.category.isUserFixable = false ∧ 4 ≤ e.category.severity) ∧
    (e.category ∉ [.resource, .security, .internal, .parsing] → e.isRecoverable = true) ∧
    (e.isInternalBug = true ↔ e.category = .internal) ∧
    (e.category.isUserFixable = true → e.category.severity ≤ 3) ∧
    (e.asParseError = none → (e.category = .parsing ↔ ∃ m, e = .tokenization m)) := by
  cases e <;> simp [CoreError.category, CoreError.isRecoverable, CoreError.isInternalBug, Category.isUserFixable, Category.severity,
    CoreError.asParseError]

example : (CoreError.security "x".toList).isRecoverable = false ∧ (CoreError.io "x".toList).isRecoverable = true ∧
    (CoreError.tokenization "x".toList).isRecoverable = true := by decide

/-- **C159 (recovery of parsing).** Of the parse errors, just those of running out of memory, of input that is too large and of bugs are not
recoverable. -/
theorem C159_parse (p : ParseError) : (CoreError.parse p).isRecoverable = false ↔
    (∃ m, p = .memory m) ∨ (∃ n k, p = .tooLarge n k) ∨ ∃ n m, p = .internal n m := by
  cases p <;> simp [CoreError.isRecoverable]

example : (CoreError.parse (.io "x".toList)).isRecoverable = true ∧ (CoreError.parse (.tooLarge 2 1)).isRecoverable = false := by decide

/-- **C159 fails** for parse errors: running out of memory, input that is too large and bugs of the parser are not recoverable, but their
category is that of mistakes the user can mend, of a low level; and the bug is not called one. -/
theorem C159_category_violated (m : Str) (n k : Nat) :
    ∀ e ∈ [CoreError.parse (.memory m), .parse (.tooLarge n k), .parse (.internal n m)],
      e.isRecoverable = false ∧ e.category = .parsing ∧ e.category.isUserFixable = true ∧ e.category.severity = 2 ∧ e.isInternalBug = false := by
  intro e he
  simp only [List.mem_cons, List.not_mem_nil, or_false] at he
  rcases he with rfl | rfl | rfl <;> exact ⟨rfl, rfl, rfl, rfl, rfl⟩

/-- **C159 (types).** An error is of at most one of the types that can be asked for, and only parse errors are of any. -/
theorem C159_types {e : CoreError} {s t : Str} (hs : e.isType s = true) (ht : e.isType t = true) : s = t ∧ ∃ p, e.asParseError = some p := by
  cases e
  case parse p =>
    refine ⟨?_, p, rfl⟩
    cases p <;> first
      | exact (of_decide_eq_true hs).trans (of_decide_eq_true ht).symm
      | exact absurd hs Bool.false_ne_true
  all_goals exact absurd hs Bool.false_ne_true

example : (CoreError.parse (.fieldCount 1 2 3)).isType "field_format".toList = true := by decide

/-- **C159 (editor).** The editor's errors about places and about history are different, recoverable, and not those of the library; those
of the library keep what they say about recovery. -/
theorem C159_editor (e : EditorError) (c : CoreError) :
    (e.isPosition = true → e.isHistory = false ∧ e.asCore = none ∧ e.isRecoverable = true) ∧
    (e.isHistory = true → e.isPosition = false ∧ e.asCore = none ∧ e.isRecoverable = true) ∧
    (e.asCore = some c ↔ e = .core c) ∧ (e.asCore = some c → e.isRecoverable = c.isRecoverable) ∧
    (e.isRecoverable = false → e ∈ [.sessionLimit, .arena, .threadSafety] ∨ ∃ x, e = .core x ∧ x.isRecoverable = false) := by
  cases e <;> simp [EditorError.isPosition, EditorError.isHistory, EditorError.asCore, EditorError.isRecoverable]
  rintro rfl; rfl

example : EditorError.nothingToUndo.isHistory = true ∧ EditorError.invalidRange.isPosition = true ∧
    EditorError.arena.isRecoverable = false ∧ (EditorError.core (.io [])).isRecoverable = true := by decide

/-! ## Collected issues -/

theorem fold_adds {ops : List COp} {is : List TokenIssue} (h : AllAdd ops is) (l : List TokenIssue) : ops.foldl COp.step l = l ++ is := by
  induction h generalizing l with
  | nil => simp
  | cons h _ ih =>
    rw [List.foldl_cons, ih]
    cases h <;> simp [COp.step]

/-- **C159 (collector).** After any history, a collector has the issues that were added since it was last emptied, in order; taking
gives just these. -/
theorem C159_collected {before ops : List COp} {is : List TokenIssue} (hb : Emptied before) (h : AllAdd ops is) :
    collect (before ++ ops) = is ∧ COp.result (collect (before ++ ops)) .take = some is ∧ issueCount (collect (before ++ ops)) = is.length ∧
    (hasIssues (collect (before ++ ops)) = true ↔ is ≠ []) ∧
    (hasErrors (collect (before ++ ops)) = true ↔ ∃ i ∈ is, i.level ≠ .warning) := by
  have hc : collect (before ++ ops) = is := by
    unfold collect
    rw [List.foldl_append, fold_adds h]
    rcases hb with rfl | ⟨b, rfl | rfl⟩
    · rfl
    · rw [List.foldl_append]; rfl
    · rw [List.foldl_append]; rfl
  rw [hc]
  refine ⟨rfl, rfl, rfl, ?_, ?_⟩
  · cases is <;> simp [hasIssues]
  · unfold hasErrors
    rw [List.any_eq_true]
    constructor
    · rintro ⟨i, hi, h⟩
      exact ⟨i, hi, by intro hw; rw [hw] at h; cases h⟩
    · rintro ⟨i, hi, h⟩
      refine ⟨i, hi, ?_⟩
      cases hl : i.level
      · exact absurd hl h
      · rfl
      · rfl

/-- Every history is one of these. -/
theorem C159_histories (ops : List COp) : ∃ before adds is, ops = before ++ adds ∧ Emptied before ∧ AllAdd adds is := by
  have key : ∀ r : List COp, ∃ before adds is, r.reverse = before ++ adds ∧ Emptied before ∧ AllAdd adds is := by
    intro r
    induction r with
    | nil => exact ⟨[], [], [], rfl, Or.inl rfl, .nil⟩
    | cons o r ih =>
      obtain ⟨b, a, is, h1, h2, h3⟩ := ih
      have app : ∀ {a is}, AllAdd a is → ∀ {i}, Adds o i → AllAdd (a ++ [o]) (is ++ [i]) := by
        intro a is h
        induction h with
        | nil => intro i hi; exact .cons hi .nil
        | cons hx _ ih => intro i hi; exact .cons hx (ih hi)
      rw [List.reverse_cons, h1]
      cases o with
      | issue i => exact ⟨b, a ++ [_], is ++ [_], by rw [List.append_assoc], h2, app h3 (.issue i)⟩
      | warning m s n c => exact ⟨b, a ++ [_], is ++ [_], by rw [List.append_assoc], h2, app h3 (.warning m s n c)⟩
      | error m s n c => exact ⟨b, a ++ [_], is ++ [_], by rw [List.append_assoc], h2, app h3 (.error m s n c)⟩
      | critical m s n c => exact ⟨b, a ++ [_], is ++ [_], by rw [List.append_assoc], h2, app h3 (.critical m s n c)⟩
      | clear => exact ⟨(b ++ a) ++ [.clear], [], [], by rw [List.append_nil], Or.inr ⟨_, Or.inl rfl⟩, .nil⟩
      | take => exact ⟨(b ++ a) ++ [.take], [], [], by rw [List.append_nil], Or.inr ⟨_, Or.inr rfl⟩, .nil⟩
  have := key ops.reverse
  rwa [List.reverse_reverse] at this

example : collect [.error "a".toList [] 1 1, .take, .warning "b".toList [] 2 5] = [⟨.warning, "b".toList, [], 2, 5⟩] :=
  (C159_collected (before := [.error "a".toList [] 1 1, .take]) (Or.inr ⟨[.error "a".toList [] 1 1], Or.inr rfl⟩) (.cons (.warning _ _ _ _) .nil)).1

/-- The issues of a level that ends the work are errors. -/
theorem C159_abort (l : Level) : (l.shouldAbort = true → l.isError = true) ∧ (l.isError = false ↔ l = .warning) ∧
    (l.shouldAbort = true ↔ l = .critical) := by
  cases l <;> decide

theorem countBy_count {α : Type} (r : Result α) (s : Severity) : r.countBy s = count s r.issues := by
  unfold Result.countBy
  induction r.issues with
  | nil => rfl
  | cons i l ih =>
    rw [List.filter_cons]
    unfold count
    by_cases h : i.severity = s
    · rw [if_pos (by simpa using h), if_pos h, List.length_cons, ih]; omega
    · rw [if_neg (by simpa using h), if_neg h, ih]; omega

theorem fold_issues {α : Type} (l : List ParseIssue) (x : Result α) : l.foldl Result.addIssue x = ⟨x.result, x.issues ++ l⟩ := by
  induction l generalizing x with
  | nil => simp
  | cons i l ih => rw [List.foldl_cons, ih]; simp [Result.addIssue]

/-- **C159 (results with issues).** Whatever issues are added to a result, it stays the result it was; it has these issues, in order; the
numbers for the four severities are right and add up; and it is blocked exactly if one of them is critical. -/
theorem C159_result {α : Type} (r : Except ParseError α) (l : List ParseIssue) :
    let x := l.foldl Result.addIssue (Result.of r)
    x.result = r ∧ x.issues = l ∧ (x.isOk = true ↔ ∃ a, r = .ok a) ∧ (∀ s, x.countBy s = count s l) ∧
    x.countBy .info + x.countBy .warning + x.countBy .error + x.countBy .critical = l.length ∧
    (x.hasBlocking = true ↔ ∃ i ∈ l, i.severity = .critical) ∧ x.criticalIssues.length = count .critical l ∧
    (∀ i, i ∈ x.criticalIssues ↔ i ∈ l ∧ i.severity = .critical) := by
  have hx : l.foldl Result.addIssue (Result.of r) = ⟨r, l⟩ := by rw [fold_issues]; simp [Result.of]
  rw [hx]
  refine ⟨rfl, rfl, ?_, fun s => countBy_count _ s, ?_, ?_, countBy_count ⟨r, l⟩ .critical, ?_⟩
  · cases r <;> simp [Result.isOk]
  · simp only [countBy_count]
    clear hx
    induction l with
    | nil => rfl
    | cons i l ih =>
      simp only [count, List.length_cons] at *
      cases i.severity <;> simp <;> omega
  · simp [Result.hasBlocking, ParseIssue.isBlocking]
  · intro i; simp [Result.criticalIssues]

example : ((Result.of (α := Nat) (.ok 1)).addIssue ⟨.critical, [], 3⟩).hasBlocking = true := by decide

end Verif.Props.ErrorInfo
