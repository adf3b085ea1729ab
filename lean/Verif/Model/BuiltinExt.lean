import Verif.Model.Complete
/-!
# Settings and commands of the built-in extensions

`crates/ass-editor/extensions/builtin/{syntax_highlight,auto_complete}/editor_ext.rs`.  A `usize` has 64 bits.  The host's
`get_config` is a function of the key; its `show_message` succeeds (it can only make `initialize` report an error after the
settings have been taken).  `secs` gives the sections `Script::parse` finds in a text, none when it fails.  A hash map of replies
is the list of its entries.
-/
namespace Verif.BuiltinExt
open Verif

/-- `ExtensionState`, as far as these extensions set it. -/
inductive State where
  | uninitialized | active | shutdown
deriving DecidableEq, Repr

/-- `ExtensionResult`, extensions/command.rs lines 107-157: success with a message and data, or failure with a message. -/
inductive Reply where
  | done (message : Str) (data : List (Str × Str))
  | refused (message : Str)
deriving DecidableEq, Repr

/-- A document: its id and its text. -/
structure Document where
  id : Str
  text : Str

/-- The pattern of syntax_highlight/editor_ext.rs lines 30-32. -/
def flag (cfg : Str → Option Str) (key : String) (old : Bool) : Bool :=
  match cfg key.toList with
  | some v => decide (v = "true".toList)
  | none => old

/-- The pattern of syntax_highlight/editor_ext.rs lines 39-43. -/
def limit (cfg : Str → Option Str) (key : String) (old : Nat) : Nat :=
  match cfg key.toList with
  | some v => match parseUnsigned 10 (2 ^ 64) v with
    | some n => n
    | none => old
  | none => old

/-! ## Highlighting -/

/-- `SyntaxHighlightExtension` with its configuration, syntax_highlight/extension.rs lines 16-36. -/
structure Syntax where
  state : State
  semantic : Bool
  tags : Bool
  errors : Bool
  max : Nat
  cache : Highlight.Cache

/-- `new`, syntax_highlight/extension.rs lines 38-67. -/
def Syntax.new : Syntax := ⟨.uninitialized, true, true, true, 10000, []⟩

/-- `initialize`, syntax_highlight/editor_ext.rs lines 26-47. -/
def Syntax.initialize (cfg : Str → Option Str) (s : Syntax) : Syntax :=
  { s with state := .active,
           semantic := flag cfg "syntax.semantic_highlighting" s.semantic,
           tags := flag cfg "syntax.highlight_tags" s.tags,
           errors := flag cfg "syntax.highlight_errors" s.errors,
           max := limit cfg "syntax.max_tokens" s.max }

/-- `shutdown`, syntax_highlight/editor_ext.rs lines 49-53. -/
def Syntax.shutdown (s : Syntax) : Syntax := { s with state := .shutdown, cache := Highlight.clearCache s.cache }

/-- `tokenize_document` of the extension: `Highlight.tokenizeDocument` with its settings and its cache. -/
def Syntax.tokens (alnum : Char → Bool) (s : Syntax) (d : Document) : List Highlight.Tok × Syntax :=
  let r := Highlight.tokenizeDocument alnum ⟨s.tags, s.max⟩ s.cache d.id d.text
  (r.1, { s with cache := r.2 })

/-- `execute_command`, syntax_highlight/editor_ext.rs lines 59-104. -/
def Syntax.execute (alnum : Char → Bool) (id : Str) (doc : Option Document) (s : Syntax) : Reply × Syntax :=
  if id = "syntax.highlight".toList then
    match doc with
    | some d => (.done ("Document highlighted with ".toList ++ showNat (s.tokens alnum d).1.length ++ " tokens".toList) [],
        (s.tokens alnum d).2)
    | none => (.refused "No active document to highlight".toList, s)
  else if id = "syntax.clear_cache".toList then
    (.done "Syntax highlight cache cleared".toList [], { s with cache := Highlight.clearCache s.cache })
  else if id = "syntax.get_tokens".toList then
    match doc with
    | some d => (.done ("Found ".toList ++ showNat (s.tokens alnum d).1.length ++ " tokens".toList)
        [("token_count".toList, showNat (s.tokens alnum d).1.length)], (s.tokens alnum d).2)
    | none => (.refused "No active document".toList, s)
  else (.refused ("Unknown command: ".toList ++ id), s)

/-- `commands`, syntax_highlight/editor_ext.rs lines 106-128: the ids, and whether a document is required. -/
def Syntax.commands : List (Str × Bool) :=
  [("syntax.highlight".toList, true), ("syntax.clear_cache".toList, false), ("syntax.get_tokens".toList, true)]

/-- `config_schema`, syntax_highlight/editor_ext.rs lines 130-140: the keys. -/
def Syntax.schema : List String :=
  ["syntax.semantic_highlighting", "syntax.highlight_tags", "syntax.highlight_errors", "syntax.max_tokens"]

/-! ## Completion -/

/-- `AutoCompleteExtension` with its configuration, auto_complete/extension.rs and types.rs lines 96-110. -/
structure Auto where
  state : State
  fields : Bool
  styles : Bool
  tags : Bool
  values : Bool
  max : Nat
  minChars : Nat
  names : List Str

/-- `new`, auto_complete/types.rs lines 112-123. -/
def Auto.new : Auto := ⟨.uninitialized, true, true, true, true, 20, 1, []⟩

/-- `initialize`, auto_complete/editor_ext.rs lines 29-53. -/
def Auto.initialize (cfg : Str → Option Str) (s : Auto) : Auto :=
  { s with state := .active,
           fields := flag cfg "autocomplete.complete_fields" s.fields,
           styles := flag cfg "autocomplete.complete_styles" s.styles,
           tags := flag cfg "autocomplete.complete_tags" s.tags,
           values := flag cfg "autocomplete.complete_values" s.values,
           max := limit cfg "autocomplete.max_suggestions" s.max }

/-- `shutdown`, auto_complete/editor_ext.rs lines 55-59. -/
def Auto.shutdown (s : Auto) : Auto := { s with state := .shutdown, names := [] }

/-- `get_completions` of the extension: `Complete.completions` with its settings; the names of styles are refreshed. -/
def Auto.completions (alnum : Char → Bool) (lower : Str → Str) (secs : Str → List Parser.Section) (s : Auto) (text : Str)
    (offset : Nat) : Outcome (List Complete.Item) :=
  Complete.completions alnum lower ⟨s.fields, s.styles, s.tags, s.max⟩ (secs text) text offset

/-- The position asked for, auto_complete/editor_ext.rs lines 75-83. -/
def place (args : List (Str × Str)) (text : Str) : Nat :=
  match args.lookup "position".toList with
  | some v => match parseUnsigned 10 (2 ^ 64) v with
    | some n => n
    | none => byteLen text
  | none => byteLen text

/-- The data of the reply, auto_complete/editor_ext.rs lines 92-96. -/
def shown (l : List Complete.Item) : List (Str × Str) :=
  (l.take 10).zipIdx.map fun p => ("completion_".toList ++ showNat p.2, p.1.what.insert)

/-- `execute_command`, auto_complete/editor_ext.rs lines 65-118. -/
def Auto.execute (alnum : Char → Bool) (lower : Str → Str) (secs : Str → List Parser.Section) (id : Str)
    (args : List (Str × Str)) (doc : Option Document) (s : Auto) : Outcome (Reply × Auto) :=
  if id = "autocomplete.trigger".toList then
    match doc with
    | some d => match s.completions alnum lower secs d.text (place args d.text) with
      | .ok l => .ok (.done ("Found ".toList ++ showNat l.length ++ " completions".toList) (shown l),
          { s with names := Complete.styleNames (secs d.text) })
      | .err => .err
      | .panic => .panic
    | none => .ok (.refused "No active document".toList, s)
  else if id = "autocomplete.update_styles".toList then
    match doc with
    | some d => .ok (.done ("Updated ".toList ++ showNat (Complete.styleNames (secs d.text)).length ++ " style names".toList) [],
        { s with names := Complete.styleNames (secs d.text) })
    | none => .ok (.refused "No active document".toList, s)
  else .ok (.refused ("Unknown command: ".toList ++ id), s)

/-- `commands`, auto_complete/editor_ext.rs lines 120-135. -/
def Auto.commands : List (Str × Bool) := [("autocomplete.trigger".toList, true), ("autocomplete.update_styles".toList, true)]

/-- `config_schema`, auto_complete/editor_ext.rs lines 137-161: the keys. -/
def Auto.schema : List String :=
  ["autocomplete.complete_fields", "autocomplete.complete_styles", "autocomplete.complete_tags", "autocomplete.complete_values",
   "autocomplete.max_suggestions", "autocomplete.min_chars"]

end Verif.BuiltinExt
