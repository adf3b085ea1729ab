import Verif.Spec.SrtDoc
/-!
# Specification: karaoke timing
-/
namespace Verif.Spec.Kara
open Verif.Spec.SrtDoc (White)

/-- A timing block `{\<name><duration>}`. -/
def block (name : List Char) (duration : Nat) : List Char :=
  '{' :: '\\' :: name ++ Nat.toDigits 10 duration ++ ['}']

/-- No two blanks in a row. -/
def SingleBlanks (s : List Char) : Prop := ∀ a x y b, s = a ++ x :: y :: b → ¬ (White x ∧ White y)

/-- The words of a text: the maximal runs of characters that are not white space. -/
inductive Words : List Char → List (List Char) → Prop
  | nil (w) (h : ∀ c ∈ w, White c) : Words w []
  | cons (w word rest l) (hw : ∀ c ∈ w, White c) (hne : word ≠ []) (hword : ∀ c ∈ word, ¬ White c)
      (hr : ∀ c, rest.head? = some c → White c) (h : Words rest l) : Words (w ++ word ++ rest) (word :: l)

/-- The inside of a block, with `d` braces open (the block's own included). -/
inductive Inside : Nat → List Char → Prop
  | done : Inside 1 []
  | opn (d s) (h : Inside (d + 1) s) : Inside d ('{' :: s)
  | cls (d s) (hd : 0 < d) (h : Inside d s) : Inside (d + 1) ('}' :: s)
  | other (d c s) (h1 : c ≠ '{') (h2 : c ≠ '}') (h : Inside d s) : Inside d (c :: s)

/-- `Outside s t`: all blocks of `s` are closed, and `t` is the text outside of them. -/
inductive Outside : List Char → List Char → Prop
  | nil : Outside [] []
  | char (c s t) (hc : c ≠ '{') (h : Outside s t) : Outside (c :: s) (c :: t)
  | block (b s t) (hb : Inside 1 b) (h : Outside s t) : Outside ('{' :: b ++ '}' :: s) t

/-- A piece of a karaoke line: a character, or a timing block. -/
inductive Piece
  | ch (c : Char)
  | time (name : List Char) (duration : Nat)
deriving DecidableEq, Repr

/-- The names of timing tags. -/
def IsName (n : List Char) : Prop := n = "k".toList ∨ n = "kf".toList ∨ n = "ko".toList ∨ n = "kt".toList

/-- The line as text. -/
def line (ps : List Piece) : List Char :=
  ps.flatMap fun
    | .ch c => [c]
    | .time n d => block n d

/-- A well-formed karaoke line. -/
def Line (ps : List Piece) : Prop :=
  ∀ p ∈ ps, match p with
    | .ch c => c ≠ '{'
    | .time n d => IsName n ∧ d < 2 ^ 32

/-- All durations changed by `f`. -/
def retime (f : Nat → Nat) (ps : List Piece) : List Piece :=
  ps.map fun
    | .ch c => .ch c
    | .time n d => .time n (f d)

/-- The durations replaced, in order, by those of a list as long as it lasts. -/
def retimeFrom : List Nat → List Piece → List Piece
  | _, [] => []
  | ts, .ch c :: ps => .ch c :: retimeFrom ts ps
  | [], .time n d :: ps => .time n d :: retimeFrom [] ps
  | t :: ts, .time n _ :: ps => .time n t :: retimeFrom ts ps

end Verif.Spec.Kara
