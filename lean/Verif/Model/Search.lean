import Verif.Model.Doc
/-!
# Search and replace — `crates/ass-editor/utils/search/{basic,query,index,trait_impl}.rs`

Letter-case folding (`str::to_lowercase`) and `char::is_alphanumeric` are parameters.  The result cache is
never written (query.rs), so it is left out, as are regular expressions and the line and section scopes.
-/
namespace Verif.Search
open Verif Verif.Doc Verif.Pos

/-- `str::find`: byte offset of the first occurrence. -/
def find (pat : Str) : Str → Option Nat
  | [] => if pat.isPrefixOf [] then some 0 else none
  | c :: s => if pat.isPrefixOf (c :: s) then some 0 else (find pat s).map (· + c.utf8Size)

/-- `SearchResult`, options.rs lines 66-84. -/
structure Hit where
  start : Nat
  fin : Nat
  text : Str
  context : Str
  line : Nat
  column : Nat
deriving DecidableEq, Repr

/-- basic.rs lines 81-89: number of line feeds and the byte after the last one, counting from byte `i`. -/
def lineInfo : Str → Nat → Nat × Nat → Nat × Nat
  | [], _, acc => acc
  | c :: s, i, (line, start) =>
    lineInfo s (i + c.utf8Size) (if c = '\n' then (line + 1, i + 1) else (line, start))

/-- `rfind('\n').map(|i| i + 1).unwrap_or(0)`, lines 94-97. -/
def afterLastLf (s : Str) : Nat := (lineInfo s 0 (0, 0)).2

/-- `find('\\n').map(|i| absolute_idx + i).unwrap_or(len)`, lines 98-101. -/
def contextEnd (cached after : Str) (idx : Nat) : Nat :=
  match find ['\n'] after with
  | some i => idx + i
  | none => byteLen cached

/-- Lines 84-111: one result.  `none` is a slicing panic. -/
def mkHit (cached : Str) (idx fin : Nat) : Option Hit :=
  match takeBytes cached idx, dropBytes cached idx, sliceBytes cached idx fin with
  | some before, some after, some text =>
    let (line, lineStart) := lineInfo before 0 (0, 0)
    match sliceBytes cached (afterLastLf before) (contextEnd cached after idx) with
    | some ctx => some ⟨idx, fin, text, ctx, line, idx - lineStart⟩
    | none => none
  | _, _, _ => none

/-- The loop, lines 76-118.  `off` is `region_offset`; the first argument bounds the number of rounds
(`err` when it runs out, which does not happen: `C29_search_partial`). -/
def loop (cached region pat : Str) (start max : Nat) : Nat → Nat → List Hit → Outcome (List Hit)
  | 0, _, _ => .err
  | k + 1, off, acc =>
    match dropBytes region off with
    | none => .panic
    | some rest =>
      match find pat rest with
      | none => .ok acc
      | some m =>
        match mkHit cached (start + off + m) (start + off + m + byteLen pat) with
        | none => .panic
        | some h =>
          if max > 0 ∧ (acc ++ [h]).length ≥ max then .ok (acc ++ [h])
          else loop cached region pat start max k (off + m + 1) (acc ++ [h])

/-- `basic_search`, lines 22-121, with scope `All` (`range = none`) or a range.  `fold` is the identity for
case-sensitive searches and `to_lowercase` otherwise. -/
def basicSearch (fold : Str → Str) (cached pat : Str) (range : Option Range) (max : Nat) : Outcome (List Hit) :=
  let text := fold cached
  let (a, b) := match range with
    | none => (0, byteLen text)
    | some r => (r.start, min r.fin (byteLen text))
  match sliceBytes text a b with
  | none => .panic
  | some region => loop cached region (fold pat) a max (byteLen region + 2) 0 []

/-! ## The word index -/

/-- `extract_words`, index.rs lines 33-84: the words in text order with their start offsets, before they
are grouped; `cur` is the word being read (reversed) and its start. -/
def words (word : Char → Bool) : Str → Nat → Option (Nat × Str) → List (Nat × Str)
  | [], _, none => []
  | [], _, some (p, w) => [(p, w.reverse)]
  | c :: s, i, cur =>
    if word c then
      match cur with
      | none => words word s (i + c.utf8Size) (some (i, [c]))
      | some (p, w) => words word s (i + c.utf8Size) (some (p, c :: w))
    else
      match cur with
      | none => words word s (i + c.utf8Size) none
      | some (p, w) => (p, w.reverse) :: words word s (i + c.utf8Size) none

/-- `search_impl` with an index, query.rs lines 62-104: `automaton::Str` accepts exactly the pattern, so
the results are the positions of the one key equal to it.  `lower` is `to_lowercase`, `fold` is `lower` for
case-insensitive searches.  A word of lower-case letters is stored as it is and any other one lowered
(index.rs lines 52-56); both are `lower` of the word.  Only start and end are kept. -/
def indexSearch (word : Char → Bool) (lower fold : Str → Str) (indexed pat : Str) (max : Nat) : List (Nat × Nat) :=
  let hits := ((words word indexed 0 none).filter (fun p => lower p.2 = fold pat)).map
    (fun p => (p.1, p.1 + byteLen pat))
  if max > 0 then hits.take max else hits

/-! ## Replacing -/

/-- `find_replace`, trait_impl.rs lines 79-91: the found ranges, last one first, are deleted and the
replacement inserted; an error stops at once. -/
def replaceHits (rep : Str) : List (Nat × Nat) → Doc → Outcome Unit × Doc
  | [], d => (.ok (), d)
  | (a, b) :: l, d =>
    match replaceHits rep l d with
    | (.ok _, d1) =>
      match d1.delete (Range.new a b) with
      | (.ok _, d2) => d2.insert a rep
      | r => r
    | r => r

/-- `find_replace` with a plain search over the whole text. -/
def findReplace (d : Doc) (cached pat rep : Str) (max : Nat) : Outcome Unit × Doc :=
  match basicSearch id cached pat none max with
  | .ok hs => replaceHits rep (hs.map (fun h => (h.start, h.fin))) d
  | .err => (.err, d)
  | .panic => (.panic, d)

end Verif.Search
