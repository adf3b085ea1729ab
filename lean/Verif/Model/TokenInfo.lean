import Verif.Model.Tokenizer
/-!
# What tokens say of themselves — `crates/ass-core/tokenizer/tokens/{token,token_type}.rs`
-/
namespace Verif.TokenInfo
open Verif Verif.Tokenizer

/-- `TokenType`, token_type.rs lines 13-94, all of them. -/
inductive Kind where
  | text | number | hexValue | colon | comma | newline | sectionOpen | sectionClose | sectionName | sectionHeader | overrideOpen | overrideClose
  | overrideBlock | comment | whitespace | drawingScale | uuEncodedLine | fontFilename | graphicFilename | formatLine | eventType | timeValue
  | booleanValue | percentageValue | stringLiteral | invalid | eof
deriving DecidableEq, Repr

/-- All of them, in the order of the enumeration. -/
def kinds : List Kind := [.text, .number, .hexValue, .colon, .comma, .newline, .sectionOpen, .sectionClose, .sectionName, .sectionHeader,
  .overrideOpen, .overrideClose, .overrideBlock, .comment, .whitespace, .drawingScale, .uuEncodedLine, .fontFilename, .graphicFilename,
  .formatLine, .eventType, .timeValue, .booleanValue, .percentageValue, .stringLiteral, .invalid, .eof]

/-- The types the tokenizer makes, among all types. -/
def kindOf : Ty → Kind
  | .text => .text
  | .number => .number
  | .hexValue => .hexValue
  | .colon => .colon
  | .comma => .comma
  | .newline => .newline
  | .sectionClose => .sectionClose
  | .sectionName => .sectionName
  | .sectionHeader => .sectionHeader
  | .overrideClose => .overrideClose
  | .overrideBlock => .overrideBlock
  | .comment => .comment
  | .whitespace => .whitespace

/-- `TokenType::is_delimiter`, token_type.rs lines 97-109. -/
def Kind.isDelimiter (k : Kind) : Bool :=
  match k with
  | .colon | .comma | .sectionOpen | .sectionClose | .overrideOpen | .overrideClose => true
  | _ => false

/-- `TokenType::is_structural`, token_type.rs lines 111-122. -/
def Kind.isStructural (k : Kind) : Bool :=
  match k with
  | .sectionHeader | .sectionOpen | .sectionClose | .formatLine | .newline => true
  | _ => false

/-- `TokenType::is_content`, token_type.rs lines 124-137. -/
def Kind.isContent (k : Kind) : Bool :=
  match k with
  | .text | .number | .hexValue | .timeValue | .booleanValue | .percentageValue | .stringLiteral => true
  | _ => false

/-- `TokenType::is_skippable`, token_type.rs lines 139-143. -/
def Kind.isSkippable (k : Kind) : Bool :=
  match k with
  | .whitespace | .comment => true
  | _ => false

/-- `TokenType::name`, token_type.rs lines 145-177; `Display` writes the same. -/
def Kind.name : Kind → Str
  | .text => "text".toList
  | .number => "number".toList
  | .hexValue => "hex value".toList
  | .colon => "colon".toList
  | .comma => "comma".toList
  | .newline => "newline".toList
  | .sectionOpen => "section open".toList
  | .sectionClose => "section close".toList
  | .sectionName => "section name".toList
  | .sectionHeader => "section header".toList
  | .overrideOpen => "override open".toList
  | .overrideClose => "override close".toList
  | .overrideBlock => "override block".toList
  | .comment => "comment".toList
  | .whitespace => "whitespace".toList
  | .drawingScale => "drawing scale".toList
  | .uuEncodedLine => "UU-encoded line".toList
  | .fontFilename => "font filename".toList
  | .graphicFilename => "graphic filename".toList
  | .formatLine => "format line".toList
  | .eventType => "event type".toList
  | .timeValue => "time value".toList
  | .booleanValue => "boolean value".toList
  | .percentageValue => "percentage value".toList
  | .stringLiteral => "string literal".toList
  | .invalid => "invalid token".toList
  | .eof => "end of file".toList

/-- `Token::len`, token.rs lines 41-45: characters. -/
def len (t : Tok) : Nat := t.span.length

/-- `Token::is_empty`, token.rs lines 47-51. -/
def isEmpty (t : Tok) : Bool := t.span.isEmpty

/-- `Token::end_column`, token.rs lines 53-57. -/
def endColumn (t : Tok) : Nat := t.col + len t

/-- `Token::is_whitespace`, token.rs lines 59-63. -/
def isWhitespace (t : Tok) : Bool :=
  match kindOf t.ty with
  | .whitespace => true
  | _ => false

/-- `Token::is_delimiter`, token.rs lines 65-77, for a token of the type. -/
def delimiterKind (k : Kind) : Bool :=
  match k with
  | .comma | .colon | .sectionOpen | .sectionClose | .overrideOpen | .overrideClose => true
  | _ => false

/-- `Token::is_content`, token.rs lines 79-90, for a token of the type. -/
def contentKind (k : Kind) : Bool :=
  match k with
  | .text | .number | .hexValue | .sectionName | .overrideBlock => true
  | _ => false

end Verif.TokenInfo
