import Verif.Model.Search
import Verif.Model.Karaoke
/-!
# Search indexes — `crates/ass-editor/utils/indexing/{common,fst,fst_build,fst_search,linear,mod}.rs`

`word` is `char::is_alphanumeric() || '_'`, `lower` is `str::to_lowercase`.  The finite state set of the `fst` crate is the sorted
list of its keys, compared as bytes; its `Subsequence` automaton accepts the keys of which the query is a subsequence.  Hashes,
times and size estimates are left out.
-/
namespace Verif.Index
open Verif
open Verif.Search (Hit)
open Verif.Doc Verif.Pos

/-- `IndexEntry`, common.rs lines 13-28. -/
structure Entry where
  pos : Nat
  context : Str
  line : Nat
  column : Nat
  sec : Option Str
deriving DecidableEq, Repr

/-- `SearchScope`, options.rs lines 50-62. -/
inductive Scope where
  | all
  | lines (first last : Nat)
  | sections (names : List Str)
  | range (first last : Nat)
deriving DecidableEq, Repr

/-- fst_build.rs lines 21-23: a line in square brackets starts a section. -/
def sectionOf (cur : Option Str) (line : Str) : Option Str :=
  if line.head? = some '[' ∧ line.getLast? = some ']' then some (line.drop 1).dropLast else cur

/-- `extract_words`, fst_build.rs lines 14-72, from line number `n` at offset `start` on. -/
def entries (word : Char → Bool) (lower : Str → Str) : Nat → Nat → Option Str → List Str → List (Str × Entry)
  | _, _, _, [] => []
  | n, start, cur, line :: ls =>
    let cur := sectionOf cur line
    ((Search.words word line 0 none).filter (fun w => byteLen w.2 ≥ 2)).map
        (fun w => (lower w.2, ⟨start + w.1, line, n, w.1, cur⟩)) ++
      entries word lower (n + 1) (start + byteLen line + 1) cur ls

/-- `build_index`, fst_search.rs lines 14-32: the words with their entries. -/
def build (word : Char → Bool) (lower : Str → Str) (text : Str) : List (Str × Entry) :=
  entries word lower 0 0 none (lines text)

/-- Comparing byte strings. -/
def bytesLt : List Nat → List Nat → Bool
  | _, [] => false
  | [], _ :: _ => true
  | a :: as, b :: bs => decide (a < b) || (decide (a = b) && bytesLt as bs)

/-- Inserting a key in the sorted set. -/
def insertKey (k : Str) : List Str → List Str
  | [] => [k]
  | a :: l => if a = k then a :: l else if bytesLt (utf8 k) (utf8 a) then k :: a :: l else a :: insertKey k l

/-- The sorted keys, `build_fst`, fst_build.rs lines 77-93. -/
def keys (ix : List (Str × Entry)) : List Str := ix.foldl (fun acc e => insertKey e.1 acc) []

/-- The automaton `Subsequence`. -/
def subseq : List Nat → List Nat → Bool
  | [], _ => true
  | _ :: _, [] => false
  | a :: as, b :: bs => if a = b then subseq as bs else subseq (a :: as) bs

/-- `matches_scope`, fst.rs lines 65-81. -/
def inScope (e : Entry) : Scope → Bool
  | .all => true
  | .lines a b => decide (a ≤ e.line) && decide (e.line ≤ b)
  | .sections names => match e.sec with
    | some s => names.contains s
    | none => false
  | .range a b => decide (a ≤ e.pos) && decide (e.pos ≤ b)

/-- A result, fst_search.rs lines 72-79 and linear.rs lines 111-118. -/
def hit (pat : Str) (e : Entry) : Hit := ⟨e.pos, e.pos + byteLen pat, pat, e.context, e.line, e.column⟩

/-- `search`, fst_search.rs lines 40-92; `none` is an index that was not built.  Leaving both loops once `max_results` results are
there keeps that many of all results. -/
def search (lower : Str → Str) (ix : Option (List (Str × Entry))) (pat : Str) (sensitive : Bool) (max : Nat) (scope : Scope) :
    List Hit :=
  match ix with
  | none => []
  | some ix =>
    let query := if sensitive then pat else lower pat
    let all := ((keys ix).filter (fun k => subseq (utf8 query) (utf8 k))).flatMap
      (fun k => ((ix.filter (fun e => e.1 = k && inScope e.2 scope))).map (fun e => hit pat e.2))
    if max > 0 then all.take max else all

/-- Insertion for `sort_by_key(Reverse(start))`, fst_search.rs lines 104-105 (stable). -/
def insertHit (h : Hit) : List Hit → List Hit
  | [] => [h]
  | a :: l => if a.start ≥ h.start then a :: insertHit h l else h :: a :: l

/-- The replacing loop, fst_search.rs lines 107-110 and linear.rs lines 135-138. -/
def replaceAll (rep : Str) : List Hit → Doc → Outcome Unit × Doc
  | [], d => (.ok (), d)
  | h :: l, d =>
    match d.replace (Range.new h.start h.fin) rep with
    | (.ok _, d') => replaceAll rep l d'
    | r => r

/-- `find_replace`, fst_search.rs lines 94-113. -/
def findReplace (lower : Str → Str) (ix : Option (List (Str × Entry))) (d : Doc) (pat rep : Str) (sensitive : Bool) (max : Nat)
    (scope : Scope) : Outcome Unit × Doc :=
  replaceAll rep ((search lower ix pat sensitive max scope).foldl (fun acc h => insertHit h acc) []) d

/-! ## The linear index -/

/-- The words of one line with their numbers, linear.rs lines 80-92. -/
def number (lower : Str → Str) (line : Str) (n start : Nat) : Nat → List Str → List (Str × Entry)
  | _, [] => []
  | i, w :: ws => (lower w, ⟨start + i, line, n, i, none⟩) :: number lower line n start (i + 1) ws

/-- `build_index`, linear.rs lines 75-94. -/
def linear (lower : Str → Str) : Nat → Nat → List Str → List (Str × Entry)
  | _, _, [] => []
  | n, start, line :: ls =>
    number lower line n start 0 (Karaoke.words line) ++ linear lower (n + 1) (start + byteLen line + 1) ls

/-- `search`, linear.rs lines 103-124; `order` is the order in which the hash map lists its keys.  The options are not read. -/
def linearSearch (lower : Str → Str) (ix : List (Str × Entry)) (order : List Str) (pat : Str) (_max : Nat) : List Hit :=
  (order.filter (fun k => containsStr (lower pat) k)).flatMap
    (fun k => (ix.filter (fun e => e.1 = k)).map (fun e => hit pat e.2))

end Verif.Index
