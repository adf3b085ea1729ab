import Verif.Model.ErrorInfo
/-!
# What errors and collections of issues should say

Of the model only the data types are used.
-/
namespace Verif.Spec.ErrorInfo
open Verif.ErrorInfo

/-- The message says `at line n`, and there it ends or is explained behind a colon. -/
def SaysLine (message : List Char) (n : Nat) : Prop :=
  ∃ before after, message = before ++ " at line ".toList ++ Nat.toDigits 10 n ++ after ∧ (after = [] ∨ ∃ why, after = ':' :: why)

/-- The line of a byte position: one more than the line feeds before it. -/
def lineAt (bytes : List Nat) (position : Nat) : Nat := 1 + (bytes.take position).count 10

/-- The words with which messages begin, with the category they belong to. -/
def headings : List (String × Category) :=
  [("Parse error: ", .parsing), ("Tokenization error: ", .parsing), ("Analysis error: ", .analysis), ("Plugin error: ", .plugin),
   ("Invalid color format: ", .format), ("Invalid numeric value: ", .format), ("Invalid time format: ", .format),
   ("UTF-8 encoding error at position ", .encoding), ("I/O error: ", .io), ("Memory allocation failed: ", .resource),
   ("Configuration error: ", .configuration), ("Validation error: ", .validation), ("Feature not supported: ", .compatibility),
   ("Version incompatibility: ", .compatibility), ("Resource limit exceeded: ", .resource), ("Security policy violation: ", .security),
   ("Internal error: ", .internal)]

/-- An issue is added. -/
inductive Adds : COp → TokenIssue → Prop
  | issue (i) : Adds (.issue i) i
  | warning (m s n c) : Adds (.warning m s n c) ⟨.warning, m, s, n, c⟩
  | error (m s n c) : Adds (.error m s n c) ⟨.error, m, s, n, c⟩
  | critical (m s n c) : Adds (.critical m s n c) ⟨.critical, m, s, n, c⟩

/-- These operations add these issues, one after the other. -/
inductive AllAdd : List COp → List TokenIssue → Prop
  | nil : AllAdd [] []
  | cons {o i os is} : Adds o i → AllAdd os is → AllAdd (o :: os) (i :: is)

/-- Nothing has been collected, or it was cleared or taken at the end. -/
def Emptied (ops : List COp) : Prop := ops = [] ∨ ∃ before, ops = before ++ [.clear] ∨ ops = before ++ [.take]

/-- The issues of a severity, counted one by one. -/
def count (s : Severity) : List ParseIssue → Nat
  | [] => 0
  | i :: l => (if i.severity = s then 1 else 0) + count s l

end Verif.Spec.ErrorInfo
