import Verif.Model.Index
/-!
# Searching part of a document, and with regular expressions —
`crates/ass-editor/utils/search/{basic,regex_search,trait_impl}.rs`

The `regex` crate is a parameter `rx`: the list of the matches (start and end, in bytes) of `Regex::find_iter` on a text, or nothing
when the pattern is refused.
-/
namespace Verif.Scope
open Verif Verif.Doc Verif.Pos
open Verif.Search (Hit mkHit loop replaceHits)
open Verif.Index (Scope)

/-- The loop over the characters for a range of lines, basic.rs lines 48-64 and regex_search.rs lines 52-68; `i` is the offset of the
next character, `line` the number of its line, `start` the offset found so far and `len` the length of the whole text. -/
def lineBounds (first last len : Nat) : Str → Nat → Nat → Nat → Nat × Nat
  | [], _, _, start => (start, len)
  | c :: s, i, line, start =>
    let start := if line = first ∧ start = 0 then i else start
    if c = '\n' then
      if line + 1 > last then (start, i) else lineBounds first last len s (i + c.utf8Size) (line + 1) start
    else lineBounds first last len s (i + c.utf8Size) line start

/-- The bounds of the search, basic.rs lines 41-71 and regex_search.rs lines 47-75. -/
def bounds (text : Str) : Scope → Nat × Nat
  | .all => (0, byteLen text)
  | .range a b => (a, min b (byteLen text))
  | .lines first last => lineBounds first last (byteLen text) text 0 0 0
  | .sections _ => (0, byteLen text)

/-- `basic_search`, basic.rs lines 22-121, with every scope.  `fold` is the identity when case matters and `to_lowercase`
otherwise.  The option for whole words is not read. -/
def plain (fold : Str → Str) (cached pat : Str) (scope : Scope) (max : Nat) (_wholeWords : Bool) : Outcome (List Hit) :=
  let text := fold cached
  match sliceBytes text (bounds text scope).1 (bounds text scope).2 with
  | none => .panic
  | some region => loop cached region (fold pat) (bounds text scope).1 max (byteLen region + 2) 0 []

/-- The loop over the matches, regex_search.rs lines 80-115. -/
def regexLoop (text : Str) (start max : Nat) : List (Nat × Nat) → List Hit → Outcome (List Hit)
  | [], acc => .ok acc
  | (a, b) :: ms, acc =>
    match mkHit text (start + a) (start + b) with
    | none => .panic
    | some h => if max > 0 ∧ (acc ++ [h]).length ≥ max then .ok (acc ++ [h]) else regexLoop text start max ms (acc ++ [h])

/-- `regex_search`, regex_search.rs lines 25-118. -/
def regex (rx : Option (Str → List (Nat × Nat))) (text : Str) (scope : Scope) (max : Nat) (_wholeWords : Bool) : Outcome (List Hit) :=
  match rx with
  | none => .err
  | some rx =>
    match sliceBytes text (bounds text scope).1 (bounds text scope).2 with
    | none => .panic
    | some region => regexLoop text (bounds text scope).1 max (rx region) []

/-- `find_replace`, trait_impl.rs lines 72-92, on top of a search. -/
def replaceFound (found : Outcome (List Hit)) (d : Doc) (rep : Str) : Outcome Unit × Doc :=
  match found with
  | .ok hs => replaceHits rep (hs.map (fun h => (h.start, h.fin))) d
  | .err => (.err, d)
  | .panic => (.panic, d)

end Verif.Scope
