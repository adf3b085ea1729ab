import Verif.Model.Str
/-!
# Word wrapping — `crates/ass-renderer/src/pipeline/build/wrap.rs`

Numbers (`f32` in the code) are any type with the operations used, so that what is said about texts holds whatever rounding
does.  The resolved font of the leading segment, lines 63-85, is in the parameters: how words are measured, the spacing and the
horizontal factor.  What a segment carries besides its text (positions and tags) is any type.
-/
namespace Verif.Wrap
open Verif

/-- The operations on numbers. -/
structure Num (F : Type) where
  zero : F
  add : F → F → F
  sub : F → F → F
  mul : F → F → F
  half : F → F
  ofNat : Nat → F
  /-- `a > b` -/
  gt : F → F → Bool
  max : F → F → F

/-- `TextSegment`: its text and the rest. -/
structure Seg (α : Type) where
  text : Str
  info : α
deriving DecidableEq, Repr

/-- A measured word, lines 91-99: advance, left bearing, right bearing, number of glyphs. -/
structure Word (F : Type) where
  adv : F
  lead : F
  trail : F
  glyphs : Nat
deriving DecidableEq, Repr

/-- How a line is measured: `measure` gives advance and ink edges of a text (lines 86-90); `spacing`, `sx` lines 71-85. -/
structure Font (F : Type) where
  measure : Str → F × F × F
  spacing : F
  sx : F

/-- A word measured, lines 91-99. -/
def word (N : Num F) (f : Font F) (w : Str) : Word F :=
  let m := f.measure w
  ⟨m.1, m.2.1, N.max (N.sub m.1 m.2.2) N.zero, w.length⟩

/-- The advance of a blank, line 101. -/
def space (N : Num F) (f : Font F) : F :=
  N.max (N.sub (f.measure "x x".toList).1 (f.measure "xx".toList).1) N.zero

/-- `line_ink`, lines 106-109, given the first and last word of the run instead of their positions. -/
def ink (N : Num F) (f : Font F) (adv : F) (glyphs : Nat) (first last : Word F) : F :=
  N.mul f.sx (N.sub (N.sub (N.add adv (N.mul f.spacing (N.ofNat (glyphs - 1)))) first.lead) last.trail)

/-- The loop of `fill`, lines 118-137, after the first word. -/
def fillLoop (N : Num F) (f : Font F) (limit : F) : Nat → Word F → F → Nat → List (Word F) → List Nat
  | _, _, _, _, [] => []
  | i, first, adv, glyphs, w :: ws =>
    let a := N.add adv (N.add (space N f) w.adv)
    let g := glyphs + (1 + w.glyphs)
    if N.gt (ink N f a g first w) limit then i :: fillLoop N f limit (i + 1) w w.adv w.glyphs ws
    else fillLoop N f limit (i + 1) first a g ws

/-- `fill`, lines 112-139: the words that start a line, apart from the first. -/
def fill (N : Num F) (f : Font F) (limit : F) : List (Word F) → List Nat
  | [] => []
  | w :: ws => fillLoop N f limit 1 w (N.add N.zero w.adv) w.glyphs ws

/-- The search for a narrower limit, lines 153-161; `k` rounds. -/
def balance (N : Num F) (f : Font F) (ws : List (Word F)) (target : Nat) : Nat → F → F → F
  | 0, _, hi => hi
  | k + 1, lo, hi =>
    let mid := N.half (N.add lo hi)
    if (fill N f mid ws).length ≤ target then balance N f ws target k lo mid else balance N f ws target k mid hi

/-- The widest word, lines 150-152. -/
def maxWord (N : Num F) (f : Font F) (ws : List (Word F)) : F :=
  (ws.map (fun w => ink N f w.adv w.glyphs w w)).foldl N.max N.zero

/-- The starts of lines, lines 140-165: `none` if the line stays whole. -/
def lineStarts (N : Num F) (f : Font F) (maxWidth : F) (bal : Bool) (ws : List (Word F)) : Option (List Nat) :=
  let base := fill N f maxWidth ws
  if base = [] then none
  else if bal then some (0 :: fill N f (balance N f ws base.length 24 (maxWord N f ws) maxWidth) ws)
  else some (0 :: base)

/-- The words of the line, lines 46-54: empty ones at the end are dropped. -/
def dropEmpty : List Str → List Str
  | [] => []
  | w :: ws => match dropEmpty ws with
    | [] => if w = [] then [] else [w]
    | l => w :: l

/-- The same, but the first word stays. -/
def words (full : Str) : List Str :=
  match splitOn ' ' full with
  | [] => []
  | w :: ws => w :: dropEmpty ws

/-- Where each word begins, lines 168-176. -/
def charStarts : Nat → List Str → List Nat
  | _, [] => []
  | pos, w :: ws => pos :: charStarts (pos + w.length + 1) ws

/-- Characters with what their segment carries, and the number of the segment, lines 37-45. -/
def flat : Nat → List (Seg α) → List (Char × Nat × α)
  | _, [] => []
  | i, s :: l => s.text.map (fun c => (c, i, s.info)) ++ flat (i + 1) l

/-- Consecutive characters of one segment put together again, lines 187-203. -/
def regroup : List (Char × Nat × α) → List (Nat × Seg α)
  | [] => []
  | (c, i, a) :: l => match regroup l with
    | [] => [(i, ⟨[c], a⟩)]
    | (j, s) :: r => if i = j then (i, ⟨c :: s.text, a⟩) :: r else (i, ⟨[c], a⟩) :: (j, s) :: r

/-- The pieces between the starts, lines 179-186: each ends one character before the next start. -/
def slices (chars : List (Char × Nat × α)) (cs : List Nat) : List Nat → List (List (Char × Nat × α))
  | [] => []
  | [a] => [chars.drop (cs[a]?.getD 0)]
  | a :: b :: l => ((chars.take (cs[b]?.getD 0 - 1)).drop (cs[a]?.getD 0)) :: slices chars cs (b :: l)

/-- `wrap_segments`, lines 19-209. -/
def wrap (N : Num F) (f : Font F) (maxWidth : F) (bal : Bool) (line : List (Seg α)) : List (List (Seg α)) :=
  if line = [] then [line]
  else
    let chars := flat 0 line
    let ws := words (chars.map (·.1))
    if ws.length ≤ 1 then [line]
    else match lineStarts N f maxWidth bal (ws.map (word N f)) with
      | none => [line]
      | some st => ((slices chars (charStarts 0 ws) st).map (fun p => (regroup p).map (·.2))).filter (fun l => !l.isEmpty)

end Verif.Wrap
