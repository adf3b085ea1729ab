import Verif.Model.ErrorInfo
/-!
# What is shown of an issue — `crates/ass-core/parser/errors/parse_issue/{issue,category,severity}.rs`
-/
namespace Verif.IssueText
open Verif
open Verif.ErrorInfo (Severity)

/-- `IssueCategory`, category.rs lines 13-46. -/
inductive Category where
  | structure_ | style | event | timing | color | font | drawing | performance | compatibility | security | format
deriving DecidableEq, Repr

/-- `Display`, category.rs lines 48-64. -/
def Category.text : Category → Str
  | .structure_ => "structure".toList
  | .style => "style".toList
  | .event => "event".toList
  | .timing => "timing".toList
  | .color => "color".toList
  | .font => "font".toList
  | .drawing => "drawing".toList
  | .performance => "performance".toList
  | .compatibility => "compatibility".toList
  | .security => "security".toList
  | .format => "format".toList

/-- `Display`, severity.rs lines 27-36. -/
def sevText : Severity → Str
  | .info => "info".toList
  | .warning => "warning".toList
  | .error => "error".toList
  | .critical => "critical".toList

/-- `ParseIssue`, issue.rs lines 16-37. -/
structure Issue where
  severity : Severity
  category : Category
  message : Str
  line : Nat
  column : Option Nat
  span : Option (Nat × Nat)
  suggestion : Option Str
deriving DecidableEq, Repr

/-- `new`, issue.rs lines 39-57; `info`, `warning`, `error` and `critical` (lines 86-109) name the severity. -/
def Issue.new (s : Severity) (c : Category) (m : Str) (line : Nat) : Issue := ⟨s, c, m, line, none, none, none⟩

/-- `with_location`, issue.rs lines 59-78. -/
def Issue.withLocation (s : Severity) (c : Category) (m : Str) (line col : Nat) (span : Nat × Nat) : Issue :=
  ⟨s, c, m, line, some col, some span, none⟩

/-- `with_suggestion`, issue.rs lines 80-85. -/
def Issue.withSuggestion (i : Issue) (s : Str) : Issue := { i with suggestion := some s }

/-- The place, issue.rs lines 114-117. -/
def Issue.location (i : Issue) : Str :=
  match i.column with
  | none => showNat i.line
  | some c => showNat i.line ++ ':' :: showNat c

/-- `format_for_display`, issue.rs lines 111-130. -/
def Issue.display (i : Issue) : Str :=
  "[".toList ++ i.location ++ ":".toList ++ i.category.text ++ "] ".toList ++ sevText i.severity ++ ": ".toList ++ i.message ++
    (match i.suggestion with
     | none => []
     | some s => "\n  Suggestion: ".toList ++ s)

/-- `is_blocking`, issue.rs lines 132-136. -/
def Issue.isBlocking (i : Issue) : Bool := i.severity = .critical

end Verif.IssueText
