import Verif.Model.Bytes
/-!
# The tokenizer — `crates/ass-core/tokenizer/{ass_tokenizer,next_token}.rs`, `scanner/*.rs`, `state/context.rs`
-/
namespace Verif.Tokenizer
open Verif

/-- `TokenContext`, state/context.rs lines 13-48, without the two contexts that are never entered. -/
inductive Ctx where
  | document | sectionHeader | fieldValue | styleOverride
deriving DecidableEq, Repr

/-- `TokenType`, tokens/token_type.rs lines 13-94: those that the tokenizer makes. -/
inductive Ty where
  | text | number | hexValue | colon | comma | newline | sectionClose | sectionName | sectionHeader | overrideClose | overrideBlock
  | comment | whitespace
deriving DecidableEq, Repr

/-- `CharNavigator`, scanner/navigator.rs lines 18-33: the place.  The text from `position` on is kept apart (`St.rest`); the
peeked character is always the first of it, and `chars` is never read. -/
structure Nav where
  pos : Nat
  line : Nat
  col : Nat
  last : Option Char
deriving DecidableEq, Repr

/-- `advance_char` over the character `c`, navigator.rs lines 105-131. -/
def move (n : Nav) (c : Char) : Nav :=
  if c = '\r' then ⟨n.pos + c.utf8Size, n.line + 1, 1, some c⟩
  else if c = '\n' then ⟨n.pos + c.utf8Size, if n.last ≠ some '\r' then n.line + 1 else n.line, 1, some c⟩
  else ⟨n.pos + c.utf8Size, n.line, n.col + 1, some c⟩

/-- The loops that advance until a character is met: what was passed, the place, what remains. -/
def scan (stop : Char → Bool) : Nav → Str → Str × Nav × Str
  | n, [] => ([], n, [])
  | n, c :: s => if stop c then ([], n, c :: s) else
    let r := scan stop (move n c) s
    (c :: r.1, r.2.1, r.2.2)

/-- `skip_whitespace`, navigator.rs lines 134-146. -/
def skipWhite (n : Nav) (s : Str) : Nav × Str :=
  (scan (fun c => !(isWs c && c != '\n' && c != '\r')) n s).2

/-- The loop of `scan_style_override`, token_scanner.rs lines 67-79; `depth` is taken to be unbounded. -/
def scanBlock : Nat → Nav → Str → Str × Nav × Str
  | _, n, [] => ([], n, [])
  | d, n, c :: s =>
    let d' := if c = '{' then d + 1 else if c = '}' then d - 1 else d
    if d' > 0 then
      let r := scanBlock d' (move n c) s
      (c :: r.1, r.2.1, r.2.2)
    else ([], n, c :: s)

/-- The delimiters of `simd::scan_delimiters`, simd/delimiters.rs lines 64-71 and 94. -/
def isDelim (c : Char) : Bool :=
  c == ':' || c == ',' || c == '{' || c == '}' || c == '[' || c == ']' || c == '\n' || c == '\r'

/-- The scan of `scan_text` with the feature `simd`, text_scanner.rs lines 29-35: the place jumps to the first delimiter (or the
end) and line, column and last character stay as they are.  The byte search is modelled in `Verif.Simd`. -/
def jump (n : Nav) (s : Str) : Str × Nav × Str :=
  let t := s.takeWhile (fun c => !isDelim c)
  (t, ⟨n.pos + byteLen t, n.line, n.col, n.last⟩, s.dropWhile (fun c => !isDelim c))

/-- `is_hex_value`, text_scanner.rs lines 90-117; `parse_hex_u32` accepts two to eight hex digits (`C93_hex`). -/
def isHexValue (s : Str) : Bool :=
  match stripPrefix ['&', 'H'] s with
  | none => false
  | some p =>
    let h := if p.getLast? = some '&' then p.dropLast else p
    !h.isEmpty && byteLen h % 2 == 0 && byteLen h ≤ 8 && h.all isHexDigit

/-- The type of a text, text_scanner.rs lines 72-86. -/
def textType (ctx : Ctx) (s : Str) : Ty :=
  if ctx = .sectionHeader then .sectionName
  else if isHexValue s then .hexValue
  else if !s.isEmpty && s.all (fun c => c.isDigit || c == '.' || c == '-') then .number
  else if !s.isEmpty && s.all isWs then .whitespace
  else .text

/-- The delimiters of the scalar loop of `scan_text`, text_scanner.rs lines 50-60. -/
def stops (ctx : Ctx) (c : Char) : Bool :=
  if ctx = .fieldValue then c == ',' || c == '{' || c == '}' || c == '[' || c == ']' || c == '\n' || c == '\r'
  else c == ',' || c == ':' || c == '{' || c == '}' || c == '[' || c == ']' || c == '\n' || c == '\r' || (c == ';' && ctx == .document)

/-- `scan_text`, text_scanner.rs lines 19-87. -/
def scanText (simd : Bool) (ctx : Ctx) (n : Nav) (s : Str) : Ty × Str × Nav × Str :=
  let r := if simd && ctx != .fieldValue then jump n s else scan (stops ctx) n s
  (textType ctx r.1, r)

/-- The type of a field value, text_scanner.rs lines 155-165. -/
def valueType (s : Str) : Ty :=
  if !s.isEmpty && s.all (fun c => c.isDigit || c == '.' || c == '-' || c == ':') then .number
  else if !s.isEmpty && s.all isWs then .whitespace
  else .text

/-- `scan_field_value`, text_scanner.rs lines 139-166. -/
def scanValue (n : Nav) (s : Str) : Ty × Str × Nav × Str :=
  let r := scan (fun c => c == ',' || c == '\n' || c == '\r' || c == '{' || c == '[') n s
  (valueType r.1, r)

/-- `scan_comment`, token_scanner.rs lines 89-99. -/
def scanComment (n : Nav) (s : Str) : Ty × Str × Nav × Str :=
  (.comment, scan (fun c => c == '\n' || c == '\r') n s)

/-- `scan_section_header` from the bracket `c` on, token_scanner.rs lines 45-57. -/
def scanHeader (n : Nav) (c : Char) (s : Str) : Ty × Str × Nav × Str :=
  let r := scan (fun c => c == ']') (move n c) s
  (.sectionHeader, c :: r.1, r.2)

/-- `scan_style_override` from the brace `c` on, token_scanner.rs lines 64-82. -/
def scanOverride (n : Nav) (c : Char) (s : Str) : Ty × Str × Nav × Str :=
  let r := scanBlock 1 (move n c) s
  (.overrideBlock, c :: r.1, r.2)

/-- A token of one character. -/
def single (ty : Ty) (n : Nav) (c : Char) (s : Str) : Ty × Str × Nav × Str := (ty, [c], move n c, s)

/-- `Token`, tokens/token.rs lines 15-27; `start` stands for where the slice `span` lies in the source. -/
structure Tok where
  ty : Ty
  span : Str
  start : Nat
  line : Nat
  col : Nat
deriving DecidableEq, Repr

/-- `AssTokenizer`, ass_tokenizer.rs lines 19-28, without the issues: none is ever added. -/
structure St where
  nav : Nav
  rest : Str
  ctx : Ctx
deriving DecidableEq, Repr

/-- What `next_token` returns: `Ok(Some(_))`, `Ok(None)`, `Err(_)`. -/
inductive Res where
  | tok (t : Tok) | done | err
deriving DecidableEq, Repr

/-- The choice of the scanner and the new context for a source that goes on with `c :: s`, next_token.rs lines 33-98;
`none`: the error when the source ends with a carriage return. -/
def token (simd : Bool) (ctx : Ctx) (n : Nav) (c : Char) (s : Str) : Ctx × Option (Ty × Str × Nav × Str) :=
  if c = '[' then (.sectionHeader, some (scanHeader n c s))
  else if c = ']' ∧ ctx = .sectionHeader then (.document, some (single .sectionClose n c s))
  else if c = ':' ∧ ctx = .document then (.fieldValue, some (single .colon n c s))
  else if c = '{' then (.styleOverride, some (scanOverride n c s))
  else if c = '}' ∧ ctx = .styleOverride then (.document, some (single .overrideClose n c s))
  else if c = ',' then (ctx, some (single .comma n c s))
  else if c = '\n' then (.document, some (single .newline n c s))
  else if c = '\r' then (.document, match s with
    | [] => none
    | d :: r => if d = '\n' then some (.newline, [c, d], move (move n c) d, r) else some (single .newline n c s))
  else if c = ';' ∧ ctx = .document then (ctx, some (scanComment n (c :: s)))
  else if c = '!' ∧ ctx = .document then
    (ctx, some (if s.head? = some ':' then scanComment n (c :: s) else scanText simd ctx n (c :: s)))
  else if c = '}' then (ctx, some (single .text n c s))
  else if c = ']' then (ctx, some (single .text n c s))
  else if ctx = .fieldValue then (ctx, some (scanValue n (c :: s)))
  else (ctx, some (scanText simd ctx n (c :: s)))

/-- `allows_whitespace_skipping`, state/context.rs lines 53-55. -/
def skips (ctx : Ctx) : Bool := ctx != .fieldValue

/-- `next_token`, next_token.rs lines 18-116. -/
def next (simd : Bool) (st : St) : Res × St :=
  let p := if skips st.ctx then skipWhite st.nav st.rest else (st.nav, st.rest)
  match p.2 with
  | [] => (.done, ⟨p.1, [], st.ctx⟩)
  | c :: s =>
    match token simd st.ctx p.1 c s with
    | (ctx, none) => (.err, ⟨move p.1 c, [], ctx⟩)
    | (ctx, some (ty, span, nav, rest)) =>
      if span = [] ∧ rest ≠ [] then (.err, ⟨nav, rest, ctx⟩)
      else (.tok ⟨ty, span, p.1.pos, p.1.line, p.1.col⟩, ⟨nav, rest, ctx⟩)

/-- `AssTokenizer::new` (and `reset`), ass_tokenizer.rs lines 35-48 and 96-105. -/
def init (src : Str) : St :=
  match src with
  | c :: s => if c = Char.ofNat 0xFEFF then ⟨⟨3, 1, 1, none⟩, s, .document⟩ else ⟨⟨0, 1, 1, none⟩, c :: s, .document⟩
  | [] => ⟨⟨0, 1, 1, none⟩, [], .document⟩

/-- The loop of `tokenize_all`; `none`: an error. -/
def collect (simd : Bool) : Nat → St → Option (List Tok)
  | k, st => match next simd st with
    | (.err, _) => none
    | (.done, _) => some []
    | (.tok t, st') => match k with
      | 0 => none
      | k + 1 => (collect simd k st').map (t :: ·)

/-- `tokenize_all` from the beginning, ass_tokenizer.rs lines 55-69. -/
def tokenizeAll (simd : Bool) (src : Str) : Option (List Tok) := collect simd 50 (init src)

/-- The tokenizer after `k` calls of `next_token`. -/
def after (simd : Bool) (src : Str) : Nat → St
  | 0 => init src
  | k + 1 => (next simd (after simd src k)).2

/-- What the call number `k` of `next_token` returns, from 0. -/
def result (simd : Bool) (src : Str) (k : Nat) : Res := (next simd (after simd src k)).1

end Verif.Tokenizer
