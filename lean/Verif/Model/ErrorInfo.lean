import Verif.Model.Ast
import Verif.Model.Encoding
/-!
# Errors and collections of issues — `crates/ass-core/utils/errors`, `parser/errors`, `tokenizer/state`, `crates/ass-editor/core/errors`

Left out: the constructors of errors (`invalid_color`, …), suggestions, the names of categories. The texts of editor errors are in `Model/EditorError.lean`.
-/
namespace Verif.ErrorInfo
open Verif

/-- `ParseError`, parser/errors/parse_error/error.rs lines 25-129. -/
inductive ParseError where
  | expectedHeader (line : Nat)
  | unclosedHeader (line : Nat)
  | unknownSection (name : Str) (line : Nat)
  | fieldFormat (line : Nat)
  | missingField (field name : Str)
  | formatLine (line : Nat) (reason : Str)
  | fieldCount (line expected found : Nat)
  | time (value : Str) (line : Nat) (reason : Str)
  | color (value : Str) (line : Nat) (reason : Str)
  | number (value : Str) (line : Nat) (reason : Str)
  | override (line : Nat) (reason : Str)
  | drawing (line : Nat) (reason : Str)
  | uuDecode (line : Nat) (reason : Str)
  | utf8 (position : Nat) (reason : Str)
  | version (version : Str)
  | circular (chain : Str)
  | nesting (line limit : Nat)
  | tooLarge (size limit : Nat)
  | io (message : Str)
  | memory (message : Str)
  | internal (line : Nat) (message : Str)
  | eventType (line : Nat)
  | tooFewFields (expected found line : Nat)
  | missingFormat
  | noSection
  | index
  | unsupported (kind : Str)
deriving DecidableEq, Repr

/-- Words with a number behind them. -/
def at_ (words : String) (n : Nat) : Str := words.toList ++ showNat n

/-- The text of a parse error, parser/errors/parse_error/formatting.rs lines 11-156.  (`{section_type:?}` is the name given.) -/
def ParseError.text : ParseError → Str
  | .expectedHeader n => at_ "Expected section header like [Script Info] at line " n
  | .unclosedHeader n => at_ "Unclosed section header at line " n ++ ": missing ']'".toList
  | .unknownSection s n => "Unknown section '".toList ++ s ++ at_ "' at line " n
  | .fieldFormat n => at_ "Invalid field format at line " n ++ ": expected 'key: value'".toList
  | .missingField f s => "Missing required field '".toList ++ f ++ "' in ".toList ++ s ++ " section".toList
  | .formatLine n r => at_ "Invalid format line at line " n ++ ": ".toList ++ r
  | .fieldCount n a b => at_ "Field count mismatch at line " n ++ at_ ": expected " a ++ at_ ", found " b
  | .time v n r => "Invalid time format '".toList ++ v ++ at_ "' at line " n ++ ": ".toList ++ r
  | .color v n r => "Invalid color format '".toList ++ v ++ at_ "' at line " n ++ ": ".toList ++ r
  | .number v n r => "Invalid numeric value '".toList ++ v ++ at_ "' at line " n ++ ": ".toList ++ r
  | .override n r => at_ "Invalid style override at line " n ++ ": ".toList ++ r
  | .drawing n r => at_ "Invalid drawing command at line " n ++ ": ".toList ++ r
  | .uuDecode n r => at_ "UU-decode error at line " n ++ ": ".toList ++ r
  | .utf8 p r => at_ "UTF-8 encoding error at byte " p ++ ": ".toList ++ r
  | .version v => "Unsupported script version '".toList ++ v ++ "': expected v4.00+ or compatible".toList
  | .circular c => "Circular style reference detected: ".toList ++ c
  | .nesting n l => at_ "Maximum nesting depth exceeded at line " n ++ at_ ": limit is " l
  | .tooLarge s l => at_ "Input size " s ++ at_ " bytes exceeds limit " l ++ " bytes".toList
  | .io m => "I/O error during parsing: ".toList ++ m
  | .memory m => "Memory allocation failed: ".toList ++ m
  | .internal n m => at_ "Internal parser error at line " n ++ ": ".toList ++ m
  | .eventType n => at_ "Invalid event type at line " n ++
      ": expected Dialogue, Comment, Picture, Sound, Movie, or Command".toList
  | .tooFewFields a b n => at_ "Insufficient fields at line " n ++ at_ ": expected " a ++ at_ ", found " b
  | .missingFormat => "Missing format specification for section".toList
  | .noSection => "Section not found".toList
  | .index => "Index out of bounds".toList
  | .unsupported k => "Unsupported section type for operation: ".toList ++ k

/-- `CoreError`, utils/errors/core/types.rs lines 21-75. -/
inductive CoreError where
  | parse (e : ParseError)
  | tokenization (m : Str)
  | analysis (m : Str)
  | plugin (m : Str)
  | invalidColor (m : Str)
  | invalidNumeric (m : Str)
  | invalidTime (m : Str)
  | utf8 (position : Nat) (m : Str)
  | io (m : Str)
  | outOfMemory (m : Str)
  | config (m : Str)
  | validation (m : Str)
  | feature (feature required : Str)
  | version (m : Str)
  | limit (resource : Str) (current limit : Nat)
  | security (m : Str)
  | internal (m : Str)
deriving DecidableEq, Repr

/-- The text of an error, utils/errors/core/display.rs lines 59-101. -/
def CoreError.text : CoreError → Str
  | .parse e => "Parse error: ".toList ++ e.text
  | .tokenization m => "Tokenization error: ".toList ++ m
  | .analysis m => "Analysis error: ".toList ++ m
  | .plugin m => "Plugin error: ".toList ++ m
  | .invalidColor m => "Invalid color format: ".toList ++ m
  | .invalidNumeric m => "Invalid numeric value: ".toList ++ m
  | .invalidTime m => "Invalid time format: ".toList ++ m
  | .utf8 p m => at_ "UTF-8 encoding error at position " p ++ ": ".toList ++ m
  | .io m => "I/O error: ".toList ++ m
  | .outOfMemory m => "Memory allocation failed: ".toList ++ m
  | .config m => "Configuration error: ".toList ++ m
  | .validation m => "Validation error: ".toList ++ m
  | .feature f r => "Feature not supported: ".toList ++ f ++ " (requires feature '".toList ++ r ++ "')".toList
  | .version m => "Version incompatibility: ".toList ++ m
  | .limit r c l => "Resource limit exceeded: ".toList ++ r ++ at_ " (" c ++ at_ "/" l ++ ")".toList
  | .security m => "Security policy violation: ".toList ++ m
  | .internal m => "Internal error: ".toList ++ m ++ " (this is a bug, please report)".toList

/-- `line_number`, utils/errors/core/methods.rs lines 74-95. -/
def CoreError.lineNumber : CoreError → Option Nat
  | .parse (.expectedHeader n) | .parse (.unclosedHeader n) | .parse (.unknownSection _ n) | .parse (.fieldFormat n)
  | .parse (.formatLine n _) | .parse (.fieldCount n _ _) | .parse (.time _ n _) | .parse (.color _ n _)
  | .parse (.number _ n _) | .parse (.override n _) | .parse (.drawing n _) | .parse (.uuDecode n _)
  | .parse (.nesting n _) | .parse (.internal n _) => some n
  | .utf8 p _ => some p
  | _ => none

/-- `is_recoverable`, methods.rs lines 29-55. -/
def CoreError.isRecoverable : CoreError → Bool
  | .parse (.memory _) | .parse (.tooLarge _ _) | .parse (.internal _ _) => false
  | .outOfMemory _ | .limit _ _ _ | .security _ | .internal _ => false
  | _ => true

/-- `is_internal_bug`, methods.rs lines 59-61. -/
def CoreError.isInternalBug : CoreError → Bool
  | .internal _ => true
  | _ => false

/-- `as_parse_error`, methods.rs lines 65-70. -/
def CoreError.asParseError : CoreError → Option ParseError
  | .parse e => some e
  | _ => none

/-- `is_parse_error_type`, methods.rs lines 99-129. -/
def CoreError.isType (t : Str) : CoreError → Bool
  | .parse (.expectedHeader _) => t = "section_header".toList
  | .parse (.unclosedHeader _) => t = "unclosed_header".toList
  | .parse (.unknownSection _ _) => t = "unknown_section".toList
  | .parse (.fieldFormat _) | .parse (.fieldCount _ _ _) => t = "field_format".toList
  | .parse (.time _ _ _) => t = "time_format".toList
  | .parse (.color _ _ _) => t = "color_format".toList
  | .parse (.number _ _ _) => t = "numeric_value".toList
  | .parse (.utf8 _ _) => t = "utf8".toList
  | _ => false

/-- `ErrorCategory`, utils/errors/category/error_category.rs lines 25-97. -/
inductive Category where
  | parsing | analysis | plugin | format | encoding | io | resource | configuration | validation | compatibility | security | internal
deriving DecidableEq, Repr

/-- `category`, category/core_error.rs lines 15-34. -/
def CoreError.category : CoreError → Category
  | .parse _ | .tokenization _ => .parsing
  | .analysis _ => .analysis
  | .plugin _ => .plugin
  | .invalidColor _ | .invalidNumeric _ | .invalidTime _ => .format
  | .utf8 _ _ => .encoding
  | .io _ => .io
  | .outOfMemory _ | .limit _ _ _ => .resource
  | .config _ => .configuration
  | .validation _ => .validation
  | .feature _ _ | .version _ => .compatibility
  | .security _ => .security
  | .internal _ => .internal

/-- `is_user_fixable`, error_category.rs lines 146-158. -/
def Category.isUserFixable : Category → Bool
  | .parsing | .format | .encoding | .configuration | .validation | .analysis | .compatibility => true
  | .plugin | .io | .resource | .security | .internal => false

/-- `severity_level`, error_category.rs lines 165-173. -/
def Category.severity : Category → Nat
  | .internal | .security => 5
  | .resource | .io => 4
  | .plugin | .compatibility => 3
  | .parsing | .validation => 2
  | .analysis | .configuration | .format | .encoding => 1

/-- `parse_event_line` with its errors, parser/sections/events/static_parser.rs lines 34-98. -/
def parseEventLine (line : Str) (format : List Str) (n : Nat) : Except ParseError Ast.Event :=
  match Ast.eventKind line with
  | none => .error (.eventType n)
  | some (k, data) => match Ast.eventData k (trim data) format with
    | .ok e => .ok e
    | .error (found, expected) => .error (.tooFewFields expected found n)

/-- `validate_utf8` with its error, utils/utf8/validation/validate.rs lines 38-51; the message is a parameter. -/
def validateUtf8 (message : Str) (b : List Nat) : Except CoreError Unit :=
  match Encoding.validateUtf8 b with
  | none => .ok ()
  | some p => .error (.utf8 p message)

/-! ## Issues of the tokenizer, tokenizer/state -/

/-- `IssueLevel`, level.rs lines 11-29. -/
inductive Level where
  | warning | error | critical
deriving DecidableEq, Repr

/-- `IssueLevel::is_error`, level.rs lines 34-36. -/
def Level.isError : Level → Bool
  | .error | .critical => true
  | .warning => false

/-- `IssueLevel::should_abort`, level.rs lines 40-42. -/
def Level.shouldAbort : Level → Bool
  | .critical => true
  | _ => false

/-- `TokenIssue`, issue.rs lines 15-30. -/
structure TokenIssue where
  level : Level
  message : Str
  span : Str
  line : Nat
  column : Nat
deriving DecidableEq, Repr

/-- What can be done with an `IssueCollector`, collector.rs lines 27-77. -/
inductive COp where
  | issue (i : TokenIssue)
  | warning (message span : Str) (line column : Nat)
  | error (message span : Str) (line column : Nat)
  | critical (message span : Str) (line column : Nat)
  | clear
  | take
deriving DecidableEq, Repr

/-- One step of an `IssueCollector`, collector.rs lines 27-44, 70-77; the collector is the list of its issues. -/
def COp.step (l : List TokenIssue) : COp → List TokenIssue
  | .issue i => l ++ [i]
  | .warning m s n c => l ++ [⟨.warning, m, s, n, c⟩]
  | .error m s n c => l ++ [⟨.error, m, s, n, c⟩]
  | .critical m s n c => l ++ [⟨.critical, m, s, n, c⟩]
  | .clear => []
  | .take => []

/-- The result of `take_issues`, collector.rs lines 75-77. -/
def COp.result (l : List TokenIssue) : COp → Option (List TokenIssue)
  | .take => some l
  | _ => none

/-- A series of steps from `IssueCollector::new`, collector.rs lines 22-24. -/
def collect (ops : List COp) : List TokenIssue := ops.foldl COp.step []

/-- `has_issues`, collector.rs lines 54-56. -/
def hasIssues (l : List TokenIssue) : Bool := !l.isEmpty

/-- `has_errors`, collector.rs lines 59-61. -/
def hasErrors (l : List TokenIssue) : Bool := l.any (·.level.isError)

/-- `issue_count`, collector.rs lines 65-67. -/
def issueCount (l : List TokenIssue) : Nat := l.length

/-! ## Issues of the parser, parser/errors -/

/-- `IssueSeverity`, parse_issue/severity.rs. -/
inductive Severity where
  | info | warning | error | critical
deriving DecidableEq, Repr

/-- `ParseIssue`, parse_issue/issue.rs lines 16-37, without category and place. -/
structure ParseIssue where
  severity : Severity
  message : Str
  line : Nat
deriving DecidableEq, Repr

/-- `is_blocking`, issue.rs lines 134-136. -/
def ParseIssue.isBlocking (i : ParseIssue) : Bool := i.severity = .critical

/-- `ParseResultWithIssues`, parse_result/result_with_issues.rs lines 21-27. -/
structure Result (α : Type) where
  result : Except ParseError α
  issues : List ParseIssue

/-- `ok`, `err` and the conversions, result_with_issues.rs lines 39-61, 154-173. -/
def Result.of {α : Type} (r : Except ParseError α) : Result α := ⟨r, []⟩

/-- `add_issue`, result_with_issues.rs lines 87-90. -/
def Result.addIssue {α : Type} (r : Result α) (i : ParseIssue) : Result α := ⟨r.result, r.issues ++ [i]⟩

/-- `critical_issues`, lines 100-105. -/
def Result.criticalIssues {α : Type} (r : Result α) : List ParseIssue := r.issues.filter (fun i => i.severity = .critical)

/-- `has_blocking_issues`, lines 115-117. -/
def Result.hasBlocking {α : Type} (r : Result α) : Bool := r.issues.any ParseIssue.isBlocking

/-- `count_by_severity`, lines 128-133. -/
def Result.countBy {α : Type} (r : Result α) (s : Severity) : Nat := (r.issues.filter (fun i => i.severity = s)).length

/-- `is_ok`, lines 140-142. -/
def Result.isOk {α : Type} (r : Result α) : Bool :=
  match r.result with
  | .ok _ => true
  | .error _ => false

/-! ## Errors of the editor -/

/-- `EditorError`, crates/ass-editor/core/errors/types.rs, without the contents of its variants. -/
inductive EditorError where
  | core (e : CoreError)
  | documentNotFound | invalidPosition | positionOutOfBounds | invalidRange | commandFailed | history | nothingToUndo | nothingToRedo
  | searchIndex | extension | featureNotEnabled | rope | eventChannel | validation | io | invalidFormat | unsupportedFormat
  | builder | serialization | formatLine | sectionNotFound | sessionLimit | arena | threadSafety
deriving DecidableEq, Repr

/-- `is_recoverable`, errors/methods.rs lines 57-85. -/
def EditorError.isRecoverable : EditorError → Bool
  | .core e => e.isRecoverable
  | .sessionLimit | .arena | .threadSafety => false
  | _ => true

/-- `is_position_error`, errors/methods.rs lines 89-96. -/
def EditorError.isPosition : EditorError → Bool
  | .invalidPosition | .positionOutOfBounds | .invalidRange => true
  | _ => false

/-- `is_history_error`, errors/methods.rs lines 100-105. -/
def EditorError.isHistory : EditorError → Bool
  | .history | .nothingToUndo | .nothingToRedo => true
  | _ => false

/-- `as_core_error`, errors/methods.rs lines 109-114. -/
def EditorError.asCore : EditorError → Option CoreError
  | .core e => some e
  | _ => none

end Verif.ErrorInfo
