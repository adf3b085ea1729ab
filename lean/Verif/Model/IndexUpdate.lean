import Verif.Model.Search
import Verif.Model.Sort
/-!
# Keeping the word index up to date — `crates/ass-editor/utils/search/{incremental,trait_impl,index}.rs`

The hash map from words to positions is the function giving the positions of every word, the empty list for words not in the map
(no empty list is ever stored).  Offsets are natural numbers and adjustments integers without bounds; statistics and the never filled
result cache are left out.  With the feature `search-index`.
-/
namespace Verif.IndexUpdate
open Verif Verif.Pos

/-- The searcher, engine.rs lines 25-48: the text it holds and the positions of the words. -/
structure St where
  cached : Str
  words : Str → List Nat

/-- `extract_words`, index.rs lines 33-86: the positions of the words whose lower case is `k`, in order. -/
def extract (word : Char → Bool) (lower : Str → Str) (text : Str) (k : Str) : List Nat :=
  ((Search.words word text 0 none).filter (fun p => lower p.2 = k)).map (·.1)

/-- `build_index`, trait_impl.rs lines 22-58. -/
def build (word : Char → Bool) (lower : Str → Str) (text : Str) : St := ⟨text, extract word lower text⟩

/-- `usize::saturating_add_signed`. -/
def satAdd (n : Nat) (i : Int) : Nat := ((n : Int) + i).toNat

/-- `find(['\n', '\r'])`. -/
def findEol : Str → Option Nat
  | [] => none
  | c :: s => if c = '\n' ∨ c = '\r' then some 0 else (findEol s).map (· + c.utf8Size)

/-- The estimate of the length of the new text, incremental.rs lines 83-94. -/
def newLen (sorted : List Range) (c : Range) (region : Str) : Nat :=
  match sorted.find? (fun d => d.start > c.fin) with
  | some next => min (byteLen region) (next.start - c.fin)
  | none =>
    match findEol region with
    | some i => i
    | none => min (byteLen region) ((c.fin - c.start) * 2)

/-- The adjustments, incremental.rs lines 74-99; `none` is a panic (a range whose end precedes its start, or a slice outside of the text
or inside a character). -/
def adjustments (cached : Str) (sorted : List Range) : Int → List Range → Option (List Int)
  | _, [] => some []
  | cum, c :: cs =>
    if c.fin < c.start then none
    else
      match dropBytes cached (satAdd c.start cum) with
      | none => none
      | some region =>
        let adj : Int := (newLen sorted c region : Int) - ((c.fin - c.start : Nat) : Int)
        (adjustments cached sorted (cum + adj) cs).map (adj :: ·)

/-- One old position, incremental.rs lines 107-126: `none` when it lies in a changed range.  `q` is the offset adjusted so far. -/
def move (p : Nat) : List (Range × Int) → Nat → Option Nat
  | [], q => some q
  | (c, a) :: l, q =>
    if c.start ≤ p ∧ p < c.fin then none
    else if c.fin ≤ p then move p l (satAdd q a)
    else move p l q

/-- Adding the positions found in a region that begins at `off`, incremental.rs lines 149-158. -/
def addAll (off : Nat) (found : List Nat) (entry : List Nat) : List Nat :=
  if found = [] then entry
  else sortKey id (found.foldl (fun e p => if e.contains (p + off) then e else e ++ [p + off]) entry)

/-- Reading the region around `at_` again, incremental.rs lines 140-159. -/
def window (word : Char → Bool) (lower : Str → Str) (cached : Str) (at_ : Nat) (m : Str → List Nat) : Option (Str → List Nat) :=
  if at_ - 50 < min (at_ + 100) (byteLen cached) then
    (sliceBytes cached (at_ - 50) (min (at_ + 100) (byteLen cached))).map
      fun region k => addAll (at_ - 50) (extract word lower region k) (m k)
  else some m

/-- The regions read again, incremental.rs lines 135-160; `sum` is the sum of the adjustments before. -/
def rescan (word : Char → Bool) (lower : Str → Str) (cached : Str) : Int → List (Range × Int) → (Str → List Nat) → Option (Str → List Nat)
  | _, [], m => some m
  | sum, (c, a) :: l, m => (window word lower cached (satAdd c.start sum) m).bind (rescan word lower cached (sum + a) l)

/-- `update_index_impl`, incremental.rs lines 32-184. -/
def update (word : Char → Bool) (lower : Str → Str) (st : St) (text : Str) (changes : List Range) : Outcome St :=
  if changes = [] then .ok st
  else if changes.length > 10 ∨ (changes.map (fun r => r.fin - r.start)).sum > 1000 then .ok (build word lower text)
  else
    let sorted := sortKey (·.start) changes
    match adjustments text sorted 0 sorted with
    | none => .panic
    | some adj =>
      let both := sorted.zip adj
      match rescan word lower text 0 both (fun k => (st.words k).filterMap (fun p => move p both p)) with
      | none => .panic
      | some m => .ok ⟨text, m⟩

end Verif.IndexUpdate
