import Verif.Model.Parser
import Verif.Model.StrX
/-!
# Sections the parser does not know — `crates/ass-core/parser/main/{section,registry,helpers}.rs`, `plugin/registry.rs`,
`plugin/sections/aegisub/processors.rs`

The parser of `Verif.Parser`, with what that model leaves out: the section processors of a registry and the "did you mean"
suggestion.  A registry is the map from names to processors, a processor any function of the header and the lines (its own
state, and a processor that panics, are left out).  The texts of messages are left out, but for what a processor says.
-/
namespace Verif.SectionExt
open Verif
open Verif.Parser

/-- `SectionResult`, plugin/traits.rs lines 22-29. -/
inductive Result where
  | processed
  | ignored
  | failed (msg : Str)
deriving DecidableEq, Repr

/-- `SectionProcessor::process`, plugin/traits.rs: the header and the lines. -/
abbrev Processor := Str → List Str → Result

/-- The section processors of an `ExtensionRegistry`, by name, plugin/registry.rs lines 24-30. -/
abbrev Registry := Str → Option Processor

/-- `ExtensionRegistry::process_section`, plugin/registry.rs lines 106-116. -/
def processSection (reg : Registry) (name header : Str) (lines : List Str) : Option Result :=
  (reg name).map (fun f => f header lines)

/-- The three suggestions, main/helpers.rs lines 73-88. -/
inductive Hint where
  | styles
  | events
  | info
deriving DecidableEq, Repr

/-- What the parser reports: the issues of `Verif.Parser`, and those it leaves out. -/
inductive Note where
  | base (i : Issue)
  | processed (name : Str) (line : Nat)
  | failed (name msg : Str) (line : Nat)
  | hint (h : Hint) (line : Nat)
deriving DecidableEq, Repr

/-- The loop that collects the lines, main/registry.rs lines 34-46. -/
def collect : Nat → List Str → St → Option (List Str × St)
  | 0, _, _ => none
  | n + 1, ls, p =>
    if p.rest = [] then some (ls, p)
    else if atNext p.rest then some (ls, p)
    else collect n (if p.rest.takeWhile (· ≠ '\n') = [] then ls else ls ++ [p.rest.takeWhile (· ≠ '\n')]) p.skipLine

/-- `try_process_with_registry`, main/registry.rs lines 24-76: it never returns a section. -/
def tryProcess (reg : Registry) (name : Str) (p : St) : Option (List Note × St) :=
  match collect (p.rest.length + 1) [] p with
  | none => none
  | some (ls, q) =>
    some (match processSection reg name name ls with
      | some .processed => [.processed name p.line]
      | some (.failed msg) => [.failed name msg p.line]
      | some .ignored => []
      | none => [], q)

/-- What one line suggests, main/helpers.rs lines 67-92; `rest` is the source from the line on. -/
def hintOf (rest : Str) : Option Hint :=
  let line := trimStart (rest.takeWhile (· ≠ '\n'))
  if startsWith "Style:".toList line then some .styles
  else if startsWith "Dialogue:".toList line || startsWith "Comment:".toList line then some .events
  else if startsWith "Title:".toList line || startsWith "ScriptType:".toList line then some .info
  else if startsWith "Format:".toList line then
    if containsStr "Dialogue:".toList rest then some .events
    else if containsStr "Style:".toList rest then some .styles
    else none
  else none

/-- `Parser::skip_to_next_section`, main/helpers.rs lines 52-104, with the suggestion. -/
def skipHint : Nat → Option Hint → St → Option (Option Hint × St)
  | 0, _, _ => none
  | n + 1, h, p =>
    if p.rest = [] then some (h, p)
    else if atNext p.rest then some (h, p)
    else skipHint n (h.or (hintOf p.rest)) p.skipLine

/-- The names of main/section.rs lines 40-91. -/
def knows (name : Str) : Bool :=
  ["Script Info".toList, "V4+ Styles".toList, "V4 Styles".toList, "V4++ Styles".toList, "Events".toList, "Fonts".toList,
    "Graphics".toList].contains (trim name)

/-- An unknown section, main/section.rs lines 101-130 with main/parse.rs lines 63-80. -/
def unknownBody (reg : Option Registry) (name : Str) (p : St) : Option (St × List Note) :=
  match (match reg with | some r => tryProcess r name p | none => some ([], p)) with
  | none => none
  | some (ns, p1) =>
    match skipHint (p1.rest.length + 1) none p1 with
    | none => none
    | some (h, p2) =>
      match skipToNext (p2.rest.length + 1) p2 with
      | none => none
      | some q => some ({ q with issues := q.issues ++ [.unknown name p2.line] },
          ns ++ h.toList.map (fun h => .hint h p2.line) ++ [.base (.unknown name p2.line)])

/-- The body of a section with the processors of a registry, main/section.rs lines 39-131. -/
def bodyExt (reg : Option Registry) (name : Str) (p : St) : Option (St × List Note) :=
  if knows name then (parseBody name p).map (fun q => (q, (q.issues.drop p.issues.length).map .base))
  else unknownBody reg name p

/-- One round of the loop of `Parser::parse`, main/parse.rs lines 61-82 with main/section.rs lines 22-37. -/
def oneExt (reg : Option Registry) (p : St) : Option (St × List Note) :=
  if startsWith ['['] p.rest then
    match splitOnce ']' p.rest with
    | some (a, r) => bodyExt reg (a.drop 1) { p with rest := r, off := p.off + byteLen a + 1 }.skipLine
    | none => (parseOne p).map (fun q => (q, [.base (.unclosed p.line)]))
  else (parseOne p).map (fun q => (q, [.base (.noHeader p.line)]))

/-- The loop of `Parser::parse`, main/parse.rs lines 54-83, with what has been reported. -/
def loopExt (reg : Option Registry) : Nat → St → List Note → Option (St × List Note)
  | 0, _, _ => none
  | n + 1, p, ns =>
    if p.rest = [] then some (p, ns)
    else match skipTop (p.rest.length + 1) p with
      | none => none
      | some p =>
        if p.rest = [] then some (p, ns)
        else match oneExt reg p with
          | none => none
          | some (q, ms) => loopExt reg n q (ns ++ ms)

/-- A parsed script and all that was reported. -/
structure Parsed where
  version : Version
  sections : List Section
  notes : List Note
  stylesFmt : Option (List Str)
  eventsFmt : Option (List Str)
deriving DecidableEq, Repr

/-- `ScriptBuilder::parse`, script/builder.rs lines 57-64, with `Parser::new_with_registry` and `Parser::parse`,
main/parse.rs lines 18-93. -/
def parseWith (reg : Option Registry) (src : Str) : Option Parsed :=
  if byteLen src > 50 * 1024 * 1024 then some ⟨.ass4, [], [.base .tooLarge], none, none⟩
  else match loopExt reg (src.length + 1) (initial src) [] with
    | none => none
    | some (p, ns) => some ⟨p.version, p.sections, ns, p.stylesFmt, p.eventsFmt⟩

/-- `str::eq_ignore_ascii_case`. -/
def eqNoCase (a b : Str) : Bool := a.map Char.toLower = b.map Char.toLower

/-- What `AegisubProjectProcessor` says of a wrong line, plugin/sections/aegisub/processors.rs line 36. -/
def projectMsg : Str := "Invalid Aegisub project line format (expected key=value or key: value)".toList

/-- The loop of `AegisubProjectProcessor::process`, plugin/sections/aegisub/processors.rs lines 27-41. -/
def projectLines : List Str → Result
  | [] => .processed
  | l :: ls =>
    if trim l = [] || startsWith ['!'] (trim l) then projectLines ls
    else if !(trim l).contains '=' && !(trim l).contains ':' then .failed projectMsg
    else projectLines ls

/-- `AegisubProjectProcessor::process`, plugin/sections/aegisub/processors.rs lines 21-42. -/
def project : Processor := fun header lines =>
  if eqNoCase header "Aegisub Project".toList then projectLines lines else .ignored

/-- What `AegisubExtradataProcessor` says of a long line, plugin/sections/aegisub/processors.rs line 76. -/
def extradataMsg : Str := "Extradata line exceeds maximum length".toList

/-- The loop of `AegisubExtradataProcessor::process`, plugin/sections/aegisub/processors.rs lines 66-81. -/
def extradataLines : List Str → Result
  | [] => .processed
  | l :: ls =>
    if trim l = [] then extradataLines ls
    else if byteLen (trim l) > 10000 then .failed extradataMsg
    else extradataLines ls

/-- `AegisubExtradataProcessor::process`, plugin/sections/aegisub/processors.rs lines 60-82. -/
def extradata : Processor := fun header lines =>
  if eqNoCase header "Aegisub Extradata".toList then extradataLines lines else .ignored

/-- A registry with the processors of `create_aegisub_processors`, plugin/sections/aegisub/mod.rs lines 43-48, each under
its name. -/
def aegisub : Registry := fun name =>
  if name = "Aegisub Project".toList then some project
  else if name = "Aegisub Extradata".toList then some extradata
  else none

end Verif.SectionExt
