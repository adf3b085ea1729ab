import Verif.Spec.Override
import Verif.Spec.Tokenizer
import Verif.Spec.InfoCmd
/-! # Specification: override blocks as lists of tags -/
namespace Verif.Spec.TagCmd
open Verif
open Verif.Spec.Ovr (Name Letter Closes)
open Verif.Spec.Tokenizer (Balanced)

/-- A tag as it is written: name and arguments. -/
def tagText (t : List Char × List Char) : List Char := '\\' :: t.1 ++ t.2

/-- The content of a block. -/
def content (ts : List (List Char × List Char)) : List Char := ts.flatMap tagText

/-- The list is how the block reads: names are made of letters (the first may be a digit) and go as far as letters go, but stop
after `r` and `fn`; arguments go up to the next backslash, those of `\t(` to the matching parenthesis. -/
def Tags : List (List Char × List Char) → Prop
  | [] => True
  | (n, a) :: l =>
    Name n ∧
    (n.head? = some 'r' → n = ['r']) ∧ (['f', 'n'] <+: n → n = ['f', 'n']) ∧
    (n = ['r'] ∨ n = ['f', 'n'] ∨ ∀ c, (a ++ content l).head? = some c → ¬ Letter c) ∧
    ((n = ['t'] ∧ a.head? = some '(' ∧ Closes 0 a) ∨ ((n ≠ ['t'] ∨ a.head? ≠ some '(') ∧ '\\' ∉ a)) ∧
    Tags l

/-- A block of tags. -/
structure Block (ts : List (List Char × List Char)) : Prop where
  tags : Tags ts
  braces : Balanced (content ts)

/-- Text in which every block is closed. -/
inductive Closed : List Char → Prop
  | nil : Closed []
  | char {c s} (hc : c ≠ '{') (h : Closed s) : Closed (c :: s)
  | block {x s} (hx : Balanced x) (h : Closed s) : Closed ('{' :: x ++ '}' :: s)

/-- `Stripped keep s t`: `t` is `s` without what stands in the blocks, and without the braces unless `keep`. -/
inductive Stripped (keep : Bool) : List Char → List Char → Prop
  | nil : Stripped keep [] []
  | char {c s t} (hc : c ≠ '{') (h : Stripped keep s t) : Stripped keep (c :: s) (c :: t)
  | block {x s t} (hx : Balanced x) (h : Stripped keep s t) :
      Stripped keep ('{' :: x ++ '}' :: s) ((if keep then ['{', '}'] else []) ++ t)

/-- A block with these tags; none for no tags, unless `keep`. -/
def written (keep : Bool) (ts : List (List Char × List Char)) : List Char :=
  if ts = [] ∧ keep = false then [] else '{' :: content ts ++ ['}']

/-- `Removed q keep s t`: `t` is `s` without the tags whose name begins with `q`. -/
inductive Removed (q : List Char) (keep : Bool) : List Char → List Char → Prop
  | nil : Removed q keep [] []
  | char {c s t} (hc : c ≠ '{') (h : Removed q keep s t) : Removed q keep (c :: s) (c :: t)
  | block {ts s t} (hb : Block ts) (h : Removed q keep s t) :
      Removed q keep ('{' :: content ts ++ '}' :: s) (written keep (ts.filter (fun t => !(q.isPrefixOf t.1))) ++ t)

/-- `Swapped f r x y`: the tags `y` are the tags `x`, each that begins with `f` having `r` there. -/
inductive Swapped (f r : List Char) : List (List Char × List Char) → List Char → Prop
  | nil : Swapped f r [] []
  | hit {t ts y} (suffix) (ht : tagText t = f ++ suffix) (h : Swapped f r ts y) : Swapped f r (t :: ts) (r ++ suffix ++ y)
  | miss {t ts y} (ht : ¬ f <+: tagText t) (h : Swapped f r ts y) : Swapped f r (t :: ts) (tagText t ++ y)

/-- `Replaced f r s t`: the same in every block of a text. -/
inductive Replaced (f r : List Char) : List Char → List Char → Prop
  | nil : Replaced f r [] []
  | char {c s t} (hc : c ≠ '{') (h : Replaced f r s t) : Replaced f r (c :: s) (c :: t)
  | block {ts s t y} (hb : Block ts) (hy : Swapped f r ts y) (h : Replaced f r s t) :
      Replaced f r ('{' :: content ts ++ '}' :: s) ('{' :: y ++ '}' :: t)

/-- Text whose blocks have no tag that begins with `f`. -/
inductive Without (f : List Char) : List Char → Prop
  | nil : Without f []
  | char {c s} (hc : c ≠ '{') (h : Without f s) : Without f (c :: s)
  | block {ts s} (hb : Block ts) (hn : ∀ t ∈ ts, ¬ f <+: tagText t) (h : Without f s) : Without f ('{' :: content ts ++ '}' :: s)

/-- The tags of a block from a byte on. -/
def places : Nat → List (List Char × List Char) → List (Nat × (List Char × List Char))
  | _, [] => []
  | n, t :: ts => (n, t) :: places (n + Script.size (tagText t)) ts

/-- The tags of a text, in order, each with the number of bytes in front of its backslash. -/
inductive Lists : Nat → List Char → List (Nat × (List Char × List Char)) → Prop
  | nil {n} : Lists n [] []
  | char {n c s l} (hc : c ≠ '{') (h : Lists (n + c.utf8Size) s l) : Lists n (c :: s) l
  | block {n ts s l} (hb : Block ts) (h : Lists (n + 2 + Script.size (content ts)) s l) :
      Lists n ('{' :: content ts ++ '}' :: s) (places (n + 1) ts ++ l)

/-- What is reported of a tag: with arguments in parentheses the name and the arguments, white space around each left out;
otherwise the whole tag. -/
def Said (t : List Char × List Char) (tag : List Char) (params : List (List Char)) : Prop :=
  (t.2 = ['(', ')'] → tag = '\\' :: t.1 ∧ params = []) ∧
  (∀ fs, t.2 = '(' :: EventCmd.csv fs ++ [')'] → EventCmd.csv fs ≠ [] → (∀ f ∈ fs, ',' ∉ f) → tag = '\\' :: t.1 ∧
    params.length = fs.length ∧ ∀ (i : Nat) f p, fs[i]? = some f → params[i]? = some p → InfoCmd.Stripped f p) ∧
  ((∀ a, t.2 ≠ '(' :: a ++ [')']) → tag = tagText t ∧ params = [])

end Verif.Spec.TagCmd
