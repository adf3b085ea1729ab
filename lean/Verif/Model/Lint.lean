import Verif.Model.Parser
import Verif.Model.Overlap
import Verif.Model.Dialogue
import Verif.Model.Styles
import Verif.Model.Color
/-!
# Linting and validation — `crates/ass-core/analysis/{construction.rs,linting/**}`, `crates/ass-editor/utils/validator/`

Messages are data instead of text; descriptions, suggested fixes, categories and locations (never set) are left out.  The
reading speed is compared exactly instead of in `f64`.  Which styles can be resolved on their own
(`ResolvedStyle::from_style`) and with a parent is a parameter.
-/
namespace Verif.Lint
open Verif
open Verif.Ast (Event Style)
open Verif.Parser (Section)
open Verif.Time (parseAssTime)

/-- `IssueSeverity`, severity.rs lines 9-21. -/
inductive Severity where
  | info | hint | warning | error | critical
deriving DecidableEq, Repr

/-- The derived order. -/
def Severity.rank : Severity → Nat
  | .info => 0
  | .hint => 1
  | .warning => 2
  | .error => 3
  | .critical => 4

/-- The message of an issue, with what it is about. -/
inductive Msg where
  | overlap (start1 stop1 start2 stop2 : Str)
  | overlapUnknown
  | duration (start stop : Str)
  | styleColor (field : Str) (value : Str)
  | tagColor (tag : Str) (value : Str)
  | style (name : Str)
  | emptyTag
  | manyEvents (n : Nat)
  | longEvent (n : Nat)
  | manyTags (n : Nat)
  | control
  | replacement
  | multibyte
  | infoControl (key : Str)
  | short (n : Nat)
  | fast (chars centiseconds : Nat)
  | longText (n : Nat)
deriving DecidableEq, Repr

/-- `LintIssue`, issue.rs. -/
structure Issue where
  severity : Severity
  rule : Str
  msg : Msg
deriving DecidableEq, Repr

/-- `sections().iter().find(|s| matches!(s, Section::Events(_)))`: the events of the first section of events. -/
def firstEvents : List Section → List Event
  | [] => []
  | .events l :: _ => l.map (·.1)
  | _ :: r => firstEvents r

/-- The styles of the first section of styles. -/
def firstStyles : List Section → List Style
  | [] => []
  | .styles l :: _ => l.map (·.1)
  | _ :: r => firstStyles r

/-- The fields of the first script information section. -/
def firstInfo : List Section → List (Str × Str)
  | [] => []
  | .info f _ :: _ => f
  | _ :: r => firstInfo r

/-- Going through a list, a check at a time. -/
def collect {α : Type} (f : α → Outcome (List Issue)) : List α → Outcome (List Issue)
  | [] => .ok []
  | x :: l => match f x with
    | .ok a => (match collect f l with
      | .ok b => .ok (a ++ b)
      | r => r)
    | r => r

/-- Two checks after each other. -/
def both (a b : Outcome (List Issue)) : Outcome (List Issue) :=
  match a with
  | .ok x => (match b with
    | .ok y => .ok (x ++ y)
    | r => r)
  | r => r

/-! ## Timing rules -/

/-- The times of an event: `none` if one is not readable (both are read). -/
def times (e : Event) : Outcome (Option (Nat × Nat)) :=
  match parseAssTime e.start, parseAssTime e.stop with
  | .overflow, _ => .panic
  | _, .overflow => .panic
  | .ok s, .ok t => .ok (some (s, t))
  | _, _ => .ok none

/-- The times of all events as `find_overlapping_events` reads them, overlap/detection.rs lines 31-45 and 107-115: it
stops at the first that is not readable, without reading the end after a bad start. -/
def timesAll : List Event → Outcome (List (Nat × Nat))
  | [] => .ok []
  | e :: l => match parseAssTime e.start with
    | .overflow => .panic
    | .err => .err
    | .ok s => match parseAssTime e.stop with
      | .overflow => .panic
      | .err => .err
      | .ok t => (match timesAll l with
        | .ok r => .ok ((s, t) :: r)
        | r => r)

/-- The message about two events, timing_overlap.rs lines 81-98. -/
def overlapIssue (l : List Event) (p : Nat × Nat) : Outcome (List Issue) :=
  match l[p.1]?, l[p.2]? with
  | some a, some b => .ok [⟨.warning, "timing-overlap".toList, .overlap a.start a.stop b.start b.stop⟩]
  | _, _ => .panic

/-- `TimingOverlapRule::check_script`, timing_overlap.rs lines 71-112. -/
def overlapRule (l : List Event) : Outcome (List Issue) :=
  if l.length < 2 then .ok []
  else match timesAll l with
    | .panic => .panic
    | .err => .ok [⟨.warning, "timing-overlap".toList, .overlapUnknown⟩]
    | .ok ts => match Overlap.findOverlaps (ts.map some) with
      | some ps => collect (overlapIssue l) ps
      | none => .ok [⟨.warning, "timing-overlap".toList, .overlapUnknown⟩]

/-- One event, negative_duration.rs lines 80-99. -/
def durationCheck (e : Event) : Outcome (List Issue) :=
  match times e with
  | .ok (some (s, t)) => .ok (if s ≥ t then [⟨.error, "negative-duration".toList, .duration e.start e.stop⟩] else [])
  | .ok none => .ok []
  | .err => .err
  | .panic => .panic

/-- `NegativeDurationRule::check_script`, negative_duration.rs lines 70-104. -/
def durationRule (l : List Event) : Outcome (List Issue) := collect durationCheck l

/-! ## Colours and styles -/

/-- `check_style_color`, invalid_color/rule.rs lines 115-125. -/
def styleColor (field value : Str) : List Issue :=
  if (Color.parseBgrColor value).isNone then [⟨.error, "invalid-color".toList, .styleColor field value⟩] else []

/-- The colours of a style, lines 84-89. -/
def styleColors (s : Style) : List Issue :=
  styleColor "primary".toList s.primary ++ styleColor "secondary".toList s.secondary ++
  styleColor "outline".toList s.outlineColour ++ styleColor "back".toList s.back

/-- The value of a colour tag: up to the next `&`, lines 154-155 and 163-164. -/
def colorValue (tag part : Str) : Option (Str × Str) := (splitOnce '&' part).map (fun p => (tag, p.1))

/-- `parse_color_tag`, lines 149-170; `panic` when the first byte is not a character. -/
def parseColorTag (part : Str) : Outcome (Option (Str × Str)) :=
  match stripPrefix "c&H".toList part with
  | some p => .ok (colorValue "c".toList p)
  | none => match stripPrefix "c&h".toList part with
    | some p => .ok (colorValue "c".toList p)
    | none =>
      if byteLen part ≥ 3 then
        match part with
        | [] => .ok none
        | d :: s =>
          if d.utf8Size ≠ 1 then .panic
          else if d ∈ ['1', '2', '3', '4'] then
            match stripPrefix "c&H".toList s with
            | some p => .ok (colorValue [d, 'c'] p)
            | none => .ok none
          else .ok none
      else .ok none

/-- One part of a tag, lines 129-145. -/
def colorPart (part : Str) : Outcome (List Issue) :=
  if part = [] then .ok []
  else match parseColorTag part with
    | .ok (some (tag, v)) =>
      .ok (if (Color.parseBgrColor ("&H".toList ++ v ++ ['&'])).isNone then [⟨.error, "invalid-color".toList, .tagColor tag v⟩] else [])
    | .ok none => .ok []
    | .err => .err
    | .panic => .panic

/-- A tag found in a text, lines 102-105 with 128-146. -/
def colorTag (t : Override.Tag) : Outcome (List Issue) :=
  collect colorPart ((splitOn '\\' ('\\' :: t.name ++ t.args)).drop 1)

/-- The tags of an event, lines 98-106. -/
def eventColors (e : Event) : Outcome (List Issue) :=
  match Override.analyze e.text with
  | .ok a => collect colorTag a.tags
  | .err => .ok []
  | .panic => .panic

/-- `InvalidColorRule::check_script`, lines 75-110. -/
def colorRule (styles : List Style) (l : List Event) : Outcome (List Issue) :=
  both (.ok (styles.flatMap styleColors)) (collect eventColors l)

/-- The names of the resolved styles, construction.rs lines 149-152: `alone` and `child` tell whether a style resolves on
its own and with a resolved parent. -/
def resolvedNames (alone child : Style → Bool) (styles : List Style) : List Str :=
  match Styles.analyze (R := Unit) (fun s => if alone s.body then some () else none)
      (fun s _ => if child s.body then some () else none) id (styles.map (fun s => ⟨s.name, s.parent, s⟩)) with
  | some m => m.map (·.1)
  | none => []

/-- `MissingStyleRule::check_script`, missing_style/rule.rs lines 73-107. -/
def styleRule (names : List Str) (l : List Event) : List Issue :=
  l.flatMap (fun e => if names.contains e.style then [] else [⟨.error, "missing-style".toList, .style e.style⟩])

/-! ## Texts -/

/-- `InvalidTagRule::check_script`, invalid_tag/rule.rs lines 75-111 (every diagnostic is an empty override, see
`Override.Diag`). -/
def tagRule (l : List Event) : Outcome (List Issue) :=
  collect (fun e => match Override.analyze e.text with
    | .ok a => .ok (a.diags.map (fun _ => ⟨.warning, "invalid-tag".toList, .emptyTag⟩))
    | .err => .ok []
    | .panic => .panic) l

/-- `analyze_events`, construction.rs lines 155-177: events that cannot be analysed are skipped. -/
def infos : List Event → Outcome (List Dialogue.Info)
  | [] => .ok []
  | e :: l => match Dialogue.analyze e.start e.stop e.text with
    | .panic => .panic
    | .err => infos l
    | .ok i => (match infos l with
      | .ok r => .ok (i :: r)
      | r => r)

/-- `check_complex_events` for one event, performance/rule.rs lines 107-145. -/
def complexEvent (i : Dialogue.Info) : List Issue :=
  (if i.text.plain.length > 500 then [⟨.hint, "performance".toList, .longEvent i.text.plain.length⟩] else []) ++
  (if i.text.tags.length > 20 then [⟨.hint, "performance".toList, .manyTags i.text.tags.length⟩] else [])

/-- `PerformanceRule::check_script`, performance/rule.rs lines 71-79. -/
def performanceRule (l : List Dialogue.Info) : List Issue :=
  (if l.length > 1000 then [⟨.hint, "performance".toList, .manyEvents l.length⟩] else []) ++ l.flatMap complexEvent

/-- `char::is_control` (the general category Cc). -/
def isControl (c : Char) : Bool := c.toNat < 32 || (127 ≤ c.toNat && c.toNat < 160)

/-- `check_event_encoding`, encoding/rule.rs lines 94-145. -/
def eventEncoding (e : Event) : List Issue :=
  (if e.text.any (fun c => isControl c && c ≠ '\n' && c ≠ '\r' && c ≠ '\t') then [⟨.warning, "encoding".toList, .control⟩] else []) ++
  (if e.text.contains '�' then [⟨.warning, "encoding".toList, .replacement⟩] else []) ++
  (if e.text.length > 0 ∧ byteLen e.text > e.text.length * 3 then [⟨.hint, "encoding".toList, .multibyte⟩] else [])

/-- One field of the script information, lines 158-171. -/
def infoEncoding (f : Str × Str) : List Issue :=
  if f.2.any (fun c => isControl c && c ≠ '\n' && c ≠ '\r') then [⟨.warning, "encoding".toList, .infoControl f.1⟩] else []

/-- `EncodingRule::check_script`, lines 72-89. -/
def encodingRule (l : List Event) (info : List (Str × Str)) : List Issue := l.flatMap eventEncoding ++ info.flatMap infoEncoding

/-- `check_event_duration`, accessibility/rule.rs lines 98-118. -/
def shortCheck (e : Event) : Outcome (List Issue) :=
  match times e with
  | .ok (some (s, t)) => .ok (if t ≥ s ∧ t - s < 500 then [⟨.hint, "accessibility".toList, .short (t - s)⟩] else [])
  | .ok none => .ok []
  | .err => .err
  | .panic => .panic

/-- `check_reading_speed`, lines 121-159; `chars * 100 / centiseconds > 20` without rounding. -/
def speedCheck (e : Event) : Outcome (List Issue) :=
  match times e with
  | .ok (some (s, t)) =>
    if t ≥ s then
      match Override.analyze e.text with
      | .ok a => .ok (if a.plain.length > 0 ∧ t - s > 0 ∧ min a.plain.length 10000 * 100 > 20 * (t - s) then
          [⟨.hint, "accessibility".toList, .fast (min a.plain.length 10000) (t - s)⟩] else [])
      | .err => .ok []
      | .panic => .panic
    else .ok []
  | .ok none => .ok []
  | .err => .err
  | .panic => .panic

/-- `check_text_length`, lines 162-179. -/
def lengthCheck (e : Event) : Outcome (List Issue) :=
  match Override.analyze e.text with
  | .ok a => .ok (if a.plain.length > 200 then [⟨.hint, "accessibility".toList, .longText a.plain.length⟩] else [])
  | .err => .ok []
  | .panic => .panic

/-- `AccessibilityRule::check_script`, lines 76-93. -/
def accessRule (l : List Event) : Outcome (List Issue) :=
  collect (fun e => both (both (shortCheck e) (speedCheck e)) (lengthCheck e)) l

/-! ## Running the rules -/

/-- `BuiltinRules::all_rules`, builtin.rs lines 53-64: the rules in order, with what each reports. -/
def allRules (alone child : Style → Bool) (secs : List Section) (inf : List Dialogue.Info) : List (Str × Outcome (List Issue)) :=
  let ev := firstEvents secs
  [("timing-overlap".toList, overlapRule ev),
   ("negative-duration".toList, durationRule ev),
   ("invalid-color".toList, colorRule (firstStyles secs) ev),
   ("missing-style".toList, .ok (styleRule (resolvedNames alone child (firstStyles secs)) ev)),
   ("invalid-tag".toList, tagRule ev),
   ("performance".toList, .ok (performanceRule inf)),
   ("encoding".toList, .ok (encodingRule ev (firstInfo secs))),
   ("accessibility".toList, accessRule ev)]

/-- `LintConfig`, config.rs lines 11-22; `strict_mode` is not read by any rule. -/
structure Config where
  minSeverity : Severity
  maxIssues : Nat
  enabled : List Str
  disabled : List Str
deriving DecidableEq

/-- `LintConfig::default()`, lines 24-34. -/
def Config.default : Config := ⟨.info, 0, [], []⟩

/-- `is_rule_enabled`, lines 60-65. -/
def Config.runs (c : Config) (id : Str) : Bool :=
  if c.disabled.contains id then false else c.enabled = [] || c.enabled.contains id

/-- The loop of `lint_script_with_analysis`, runner.rs lines 32-46 (the same in construction.rs lines 129-143). -/
def runLoop (c : Config) : List Issue → List (Str × Outcome (List Issue)) → Outcome (List Issue)
  | acc, [] => .ok acc
  | acc, (id, r) :: rest =>
    if c.runs id then
      match r with
      | .ok l =>
        let acc' := acc ++ l.filter (fun i => c.minSeverity.rank ≤ i.severity.rank)
        if c.maxIssues > 0 ∧ acc'.length ≥ c.maxIssues then .ok (acc'.take c.maxIssues) else runLoop c acc' rest
      | r => r
    else runLoop c acc rest

/-- `lint_script`, runner.rs lines 60-78. -/
def lint (alone child : Style → Bool) (c : Config) (secs : List Section) : Outcome (List Issue) :=
  match infos (firstEvents secs) with
  | .ok inf => runLoop c [] (allRules alone child secs inf)
  | .err => .err
  | .panic => .panic

/-! ## Validation -/

/-- `ValidationSeverity`, issue.rs lines 10-21. -/
inductive Level where
  | info | warning | error | critical
deriving DecidableEq, Repr

/-- The derived order. -/
def Level.rank : Level → Nat
  | .info => 0
  | .warning => 1
  | .error => 2
  | .critical => 3

/-- core_validation.rs lines 34-40. -/
def Severity.level : Severity → Level
  | .hint => .info
  | .info => .info
  | .warning => .warning
  | .error => .error
  | .critical => .critical

/-- What a validation issue says: a message of the linter, or of the basic checks. -/
inductive Finding where
  | lint (rule : Str) (msg : Msg)
  | empty
  | noInfo
  | noEvents
deriving DecidableEq, Repr

/-- `ValidationIssue`, issue.rs lines 24-43. -/
structure VIssue where
  level : Level
  finding : Finding
deriving DecidableEq, Repr

/-- `is_error`, lines 93-98. -/
def VIssue.isError (i : VIssue) : Bool := i.level = .error || i.level = .critical

/-- `add_basic_checks`, core_validation.rs lines 111-136. -/
def basicChecks (content : Str) : List VIssue :=
  (if content = [] then [⟨.warning, .empty⟩] else []) ++
  (if !containsStr "[Script Info]".toList content then [⟨.warning, .noInfo⟩] else []) ++
  (if !containsStr "[Events]".toList content then [⟨.warning, .noEvents⟩] else [])

/-- The fields of `ValidatorConfig` that are read, config.rs lines 10-29; the interval in milliseconds. -/
structure VConfig where
  interval : Nat
  maxIssues : Nat
  threshold : Level
deriving DecidableEq

/-- `ValidatorConfig::default()`, lines 31-45. -/
def VConfig.default : VConfig := ⟨500, 100, .info⟩

/-- Everything there is to report: lines 33-72 (the analysis itself never fails). -/
def allIssues (lints : List Issue) (content : Str) : List VIssue :=
  lints.map (fun i => ⟨i.severity.level, .lint i.rule i.msg⟩) ++ basicChecks content

/-- Threshold and limit, lines 74-80. -/
def report (c : VConfig) (l : List VIssue) : List VIssue :=
  let kept := l.filter (fun i => c.threshold.rank ≤ i.level.rank)
  if c.maxIssues > 0 ∧ kept.length > c.maxIssues then kept.take c.maxIssues else kept

/-- `ValidationResult`, result.rs lines 19-40, without the times. -/
structure Result where
  issues : List VIssue
  valid : Bool
  warnings : Nat
  errors : Nat
deriving DecidableEq

/-- `ValidationResult::new`, lines 44-62. -/
def Result.of (l : List VIssue) : Result :=
  let errors := (l.filter VIssue.isError).length
  ⟨l, errors = 0, (l.filter (fun i => i.level = .warning)).length, errors⟩

/-- `validate_with_core`, core_validation.rs lines 20-83: linting with the default configuration (construction.rs lines
119-146), then the rest. -/
def fresh (alone child : Style → Bool) (c : VConfig) (content : Str) : Outcome Result :=
  match Parser.parse content with
  | none => .err
  | some s => match lint alone child Config.default s.sections with
    | .ok l => .ok (Result.of (report c (allIssues l content)))
    | .err => .err
    | .panic => .panic

/-- `calculate_hash`, api.rs lines 100-108. -/
def hash (content : Str) : Nat :=
  (utf8 content).foldl (fun h b => ((Nat.xor h b) * 0x100000001b3) % 2 ^ 64) 0xcbf29ce484222325

/-- `LazyValidator`, lazy_validator.rs lines 19-36: the cached result, the hash, and when it was computed (milliseconds). -/
structure Validator where
  config : VConfig
  cached : Option Result
  hash : Nat
  last : Option Nat
deriving DecidableEq

/-- `with_config`, lines 45-73. -/
def Validator.new (c : VConfig) : Validator := ⟨c, none, 0, none⟩

/-- `should_use_cache`, api.rs lines 84-97, at time `now`. -/
def Validator.hit (v : Validator) (h now : Nat) : Bool :=
  if v.cached.isNone || v.hash ≠ h then false
  else match v.last with
    | some t => now - t < v.config.interval
    | none => true

/-- `validate`, api.rs lines 14-55.  The clock is read once. -/
def Validator.validate (alone child : Style → Bool) (v : Validator) (now : Nat) (content : Str) : Outcome (Result × Validator) :=
  if v.hit (Lint.hash content) now then
    match v.cached with
    | some r => .ok (r, v)
    | none => .err
  else match fresh alone child v.config content with
    | .ok r => .ok (r, { v with cached := some r, hash := Lint.hash content, last := some now })
    | .err => .err
    | .panic => .panic

/-- `clear_cache`, lines 74-81. -/
def Validator.clear (v : Validator) : Validator := { v with cached := none, hash := 0, last := none }

/-- `force_validate`, lines 58-61. -/
def Validator.force (alone child : Style → Bool) (v : Validator) (now : Nat) (content : Str) : Outcome (Result × Validator) :=
  Validator.validate alone child { v with cached := none } now content

/-- `set_config`, lazy_validator.rs lines 76-102. -/
def Validator.setConfig (v : Validator) (c : VConfig) : Validator := Validator.clear { v with config := c }

end Verif.Lint
