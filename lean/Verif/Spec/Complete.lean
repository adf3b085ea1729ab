import Verif.Model.Complete
import Verif.Spec.InfoCmd
/-!
# Specification: auto-completion
-/
namespace Verif.Spec.Complete
open Verif
open Verif.Complete (What Config Kind)
open Verif.Spec.EventCmd (White)

/-- The cursor in a document: the lines above, the line's text before and after it, and the rest. -/
structure Cut (text above before after below : Str) : Prop where
  eq : text = above ++ before ++ after ++ below
  before : '\n' ∉ before
  after : '\n' ∉ after
  above : above = [] ∨ above.getLast? = some '\n'
  below : ∀ c, below.head? = some c → c = '\n'

/-- Bytes of a text. -/
def bytes (s : Str) : Nat := (s.map Char.utf8Size).sum

/-- The section after some lines: the name in the last line that is a header. -/
inductive SectionAt : Str → Option Str → Prop where
  | start : SectionAt [] none
  | header {a name cr : Str} : a = [] ∨ a.getLast? = some '\n' → '\n' ∉ name → cr = [] ∨ cr = ['\r'] →
      SectionAt (a ++ ('[' :: name ++ ']' :: cr) ++ ['\n']) (some name)
  | line {a l : Str} {s : Option Str} : SectionAt a s → '\n' ∉ l → (∀ name, l ≠ '[' :: name ++ [']']) →
      (∀ name, l ≠ '[' :: name ++ [']', '\r']) → SectionAt (a ++ l ++ ['\n']) s

/-- The line's text before the cursor is in an override block, of which `b` is typed. -/
def InBlock (before b : Str) : Prop := ∃ a, before = a ++ '{' :: b ∧ '{' ∉ b ∧ '}' ∉ b

/-- The name begins with what is typed, apart from case. -/
def Begins (lower : Str → Str) (typed name : Str) : Prop := typed = [] ∨ ∃ r, lower name = lower typed ++ r

/-- The line without blanks in front. -/
def Unindented (line s : Str) : Prop := ∃ w, line = w ++ s ∧ (∀ c ∈ w, White c) ∧ ∀ c, s.head? = some c → ¬ White c

/-- What is to be offered. -/
inductive Offered (alnum : Char → Bool) (lower : Str → Str) (cfg : Config) (names : List Str) (sec : Option Str) (before after : Str) :
    What → Prop where
  /-- All sections on an empty line. -/
  | sections {n : Str} : before = [] → after = [] → n ∈ Complete.sections →
      Offered alnum lower cfg names sec before after ⟨'[' :: n, '[' :: n, .header⟩
  /-- Sections that begin with what is typed after a bracket. -/
  | section_ {n typed : Str} : before = '[' :: typed → n ∈ Complete.sections → Begins lower typed n →
      Offered alnum lower cfg names sec before after ⟨'[' :: n, '[' :: n, .header⟩
  /-- Fields of the section that begin with the line. -/
  | field {s n typed : Str} : sec = some s → (∀ b, ¬ InBlock before b) → cfg.fields = true → n ∈ Complete.fieldsOf s →
      Unindented (before ++ after) typed → Begins lower typed n → Offered alnum lower cfg names sec before after ⟨n, n, .field⟩
  /-- In a block all tags, -/
  | tags {b t e : Str} : InBlock before b → '\\' ∉ b → cfg.tags = true → (t, e) ∈ Complete.tags →
      Offered alnum lower cfg names sec before after ⟨e, '\\' :: t, .tag⟩
  /-- and after a backslash the tags that begin with the letters and digits typed. -/
  | tag {c typed rest r e : Str} : InBlock before (c ++ '\\' :: typed ++ rest) → '\\' ∉ typed ++ rest → (∀ x ∈ typed, alnum x = true) →
      (∀ x, rest.head? = some x → alnum x = false) → cfg.tags = true → (typed ++ r, e) ∈ Complete.tags →
      Offered alnum lower cfg names sec before after ⟨e, '\\' :: (typed ++ r), .tag⟩
  /-- All styles in the fourth field of an event. -/
  | style {n s : Str} : sec = some "Events".toList → before.count ',' = 3 → Unindented (before ++ after) s →
      (∃ r, s = "Dialogue:".toList ++ r ∨ s = "Comment:".toList ++ r) → cfg.styles = true → n ∈ names →
      Offered alnum lower cfg names sec before after ⟨n, n, .styleRef⟩

end Verif.Spec.Complete
