import Verif.Model.Highlight
import Verif.Spec.InfoCmd
/-!
# Specification: syntax highlighting

A document is cut into pieces, some of them with a meaning; the tokens are these pieces, where they stand.
-/
namespace Verif.Spec.Highlight
open Verif
open Verif.Highlight (Kind Tok)
open Verif.Spec.EventCmd (White)
open Verif.Spec.InfoCmd (Stripped)

/-- A piece of text, with its meaning if it has one. -/
structure Piece where
  what : Option (Kind × Option Str)
  text : Str

/-- Text without a meaning. -/
def gap (s : Str) : Piece := ⟨none, s⟩
def mark (k : Kind) (s : Str) : Piece := ⟨some (k, none), s⟩
def named (k : Kind) (name s : Str) : Piece := ⟨some (k, some name), s⟩

/-- Bytes of a text. -/
def bytes (s : Str) : Nat := (s.map Char.utf8Size).sum

/-- The tokens of pieces one after the other, the first at `n`. -/
def place : Nat → List Piece → List Tok
  | _, [] => []
  | n, p :: l =>
    (match p.what with
     | none => []
     | some (k, i) => [⟨n, n + bytes p.text, k, i⟩]) ++ place (n + bytes p.text) l

/-- What lies between two backslashes: a tag's name as far as letters and digits go, and its parameters. -/
inductive Part (alnum : Char → Bool) : Str → List Piece → Prop where
  | other {s : Str} : (∀ c, s.head? = some c → alnum c = false) → Part alnum s [gap s]
  | tag {name : Str} : name ≠ [] → (∀ c ∈ name, alnum c = true) → Part alnum name [named .tag name name]
  | withParam {name s : Str} {c : Char} : name ≠ [] → (∀ c ∈ name, alnum c = true) → alnum c = false →
      Part alnum (name ++ c :: s) [named .tag name name, mark .param (c :: s)]

/-- The inside of an override block. -/
inductive Block (alnum : Char → Bool) : Str → List Piece → Prop where
  | last {s : Str} {l : List Piece} : '\\' ∉ s → Part alnum s l → Block alnum s l
  | more {s t : Str} {l m : List Piece} : '\\' ∉ s → Part alnum s l → Block alnum t m →
      Block alnum (s ++ '\\' :: t) (l ++ gap ['\\'] :: m)

/-- The text of an event: plain text as far as it goes, blocks with their braces, and a block that is not closed. -/
inductive Text (alnum : Char → Bool) : Str → List Piece → Prop where
  | done : Text alnum [] []
  | plain {s t : Str} {l : List Piece} : s ≠ [] → '{' ∉ s → (∀ c, t.head? = some c → c = '{') → Text alnum t l →
      Text alnum (s ++ t) (mark .text s :: l)
  | block {s t : Str} {l m : List Piece} : '}' ∉ s → Block alnum s l → Text alnum t m →
      Text alnum ('{' :: s ++ '}' :: t) (mark .tag ['{'] :: l ++ mark .tag ['}'] :: m)
  | unclosed {s : Str} : '}' ∉ s → Text alnum ('{' :: s) [named .error "Unclosed override tag".toList ('{' :: s)]

/-- What a field of an event is. -/
inductive EventField : Nat → Str → Piece → Prop where
  | time {i : Nat} {s : Str} : i = 1 ∨ i = 2 → EventField i s (mark .timeCode s)
  | style {s name : Str} : Stripped s name → EventField 3 s (named .styleName name s)
  | other {i : Nat} {s : Str} : i ≠ 1 → i ≠ 2 → i ≠ 3 → EventField i s (mark .fieldValue s)

/-- The nine fields before the text, each with its comma. -/
inductive EventFields : Nat → Str → List Piece → Prop where
  | done : EventFields 9 [] []
  | field {i : Nat} {s t : Str} {p : Piece} {l : List Piece} : ',' ∉ s → EventField i s p → EventFields (i + 1) t l →
      EventFields i (s ++ ',' :: t) (p :: gap [','] :: l)

/-- What follows the type of an event. -/
inductive Event (alnum : Char → Bool) (tags : Bool) : Str → List Piece → Prop where
  | short {s : Str} : s.count ',' < 9 → Event alnum tags s [gap s]
  | plain {pre text : Str} {l : List Piece} : tags = false → EventFields 0 pre l →
      Event alnum tags (pre ++ text) (l ++ [mark .fieldValue [], mark .text text])
  | tagged {pre text : Str} {l m : List Piece} : tags = true → EventFields 0 pre l → Text alnum text m →
      Event alnum tags (pre ++ text) (l ++ mark .fieldValue [] :: m)

/-- The fields of a style after the first. -/
inductive StyleRest : Str → List Piece → Prop where
  | done : StyleRest [] []
  | field {s t : Str} {l : List Piece} : ',' ∉ s → (∀ c, t.head? = some c → c = ',') → StyleRest t l →
      StyleRest (',' :: s ++ t) (gap [','] :: mark .fieldValue s :: l)

/-- What follows `Style:`, if it does not begin with a blank. -/
inductive Style : Str → List Piece → Prop where
  | mk {s t name : Str} {l : List Piece} : ',' ∉ s → (∀ c, t.head? = some c → c = ',') → Stripped s name → StyleRest t l →
      Style (s ++ t) (named .styleName name s :: l)

/-- A line that is not in a section's own form. -/
def Special (line : Str) : Prop := (∃ name, line = '[' :: name ++ [']']) ∨ ∃ s, line = ';' :: s

/-- The pieces of a line in a section. -/
inductive InSection (alnum : Char → Bool) (tags : Bool) : Str → Str → List Piece → Prop where
  | info {sec key value : Str} : sec ∈ ["Script Info".toList, "Aegisub Project Garbage".toList] → ':' ∉ key →
      (∃ c ∈ value, ¬ White c) →
      InSection alnum tags sec (key ++ ':' :: value) [named .fieldName key (key ++ [':']), mark .fieldValue value]
  | infoEmpty {sec key value : Str} : sec ∈ ["Script Info".toList, "Aegisub Project Garbage".toList] → ':' ∉ key →
      (∀ c ∈ value, White c) →
      InSection alnum tags sec (key ++ ':' :: value) [named .fieldName key (key ++ [':']), gap value]
  | infoOther {sec line : Str} : sec ∈ ["Script Info".toList, "Aegisub Project Garbage".toList] → ':' ∉ line →
      InSection alnum tags sec line [gap line]
  | format {sec s : Str} : sec ∈ ["V4+ Styles".toList, "V4 Styles".toList, "Events".toList] →
      InSection alnum tags sec ("Format:".toList ++ s) [named .fieldName "Format".toList "Format:".toList, mark .fieldValue s]
  /-- Blanks after `Style:` are counted at the end of the line (see `C102_style_violated`). -/
  | style {sec w s : Str} {l : List Piece} : sec ∈ ["V4+ Styles".toList, "V4 Styles".toList] → (∀ c ∈ w, White c) →
      (∀ c, s.head? = some c → ¬ White c) → Style s l →
      InSection alnum tags sec ("Style:".toList ++ w ++ s) (named .fieldName "Style".toList "Style:".toList :: l ++ [gap w])
  | styleOther {sec line : Str} : sec ∈ ["V4+ Styles".toList, "V4 Styles".toList] →
      (∀ s, line ≠ "Format:".toList ++ s) → (∀ s, line ≠ "Style:".toList ++ s) → InSection alnum tags sec line [gap line]
  | event {type s : Str} {l : List Piece} : type ∈ ["Dialogue".toList, "Comment".toList] → Event alnum tags s l →
      InSection alnum tags "Events".toList (type ++ ':' :: s) (named .eventType type (type ++ [':']) :: l)
  | eventOther {line : Str} : (∀ s, line ≠ "Format:".toList ++ s) → (∀ s, line ≠ "Dialogue:".toList ++ s) →
      (∀ s, line ≠ "Comment:".toList ++ s) → InSection alnum tags "Events".toList line [gap line]
  | other {sec line : Str} :
      sec ∉ ["Script Info".toList, "Aegisub Project Garbage".toList, "V4+ Styles".toList, "V4 Styles".toList, "Events".toList] →
      InSection alnum tags sec line [mark .text line]

/-- The pieces of a line, in the section before it, and the section after it. -/
inductive Line (alnum : Char → Bool) (tags : Bool) : Option Str → Str → List Piece → Option Str → Prop where
  | header {sec : Option Str} {name : Str} :
      Line alnum tags sec ('[' :: name ++ [']']) [named .header name ('[' :: name ++ [']'])] (some name)
  | comment {sec : Option Str} {s : Str} : Line alnum tags sec (';' :: s) [mark .comment (';' :: s)] sec
  | before {line : Str} : ¬ Special line → Line alnum tags none line [gap line] none
  | inside {sec line : Str} {l : List Piece} : ¬ Special line → InSection alnum tags sec line l → Line alnum tags (some sec) line l (some sec)

/-- The pieces of a document from some line on. -/
inductive Doc (alnum : Char → Bool) (tags : Bool) : Option Str → Str → List Piece → Prop where
  | done {sec : Option Str} : Doc alnum tags sec [] []
  | last {sec sec' : Option Str} {line : Str} {l : List Piece} : line ≠ [] → '\n' ∉ line → Line alnum tags sec line l sec' →
      Doc alnum tags sec line l
  | more {sec sec' : Option Str} {line t : Str} {l m : List Piece} : '\n' ∉ line → Line alnum tags sec line l sec' →
      Doc alnum tags sec' t m → Doc alnum tags sec (line ++ '\n' :: t) (l ++ gap ['\n'] :: m)

end Verif.Spec.Highlight
