import Verif.Model.Str
/-!
# Specification: override tags and visible text
-/
namespace Verif.Spec.Ovr
open Verif

/-- An ASCII letter. -/
def Letter (c : Char) : Prop := (97 ≤ c.toNat ∧ c.toNat ≤ 122) ∨ (65 ≤ c.toNat ∧ c.toNat ≤ 90)

/-- An ASCII digit. -/
def Digit (c : Char) : Prop := 48 ≤ c.toNat ∧ c.toNat ≤ 57

/-- A tag name: a letter or digit, then letters. -/
def Name (n : List Char) : Prop := ∃ c t, n = c :: t ∧ (Letter c ∨ Digit c) ∧ ∀ x ∈ t, Letter x

/-- Where a name stops: before something that is not a letter; `r` and `fn` stop at once. -/
def NameStops (n next : List Char) : Prop :=
  n = ['r'] ∨ n = ['f', 'n'] ∨ ∀ c, next.head? = some c → ¬ Letter c

/-- `(`…`)` whose parentheses match: `d` are open before. -/
inductive Closes : Nat → List Char → Prop
  | last : Closes 1 [')']
  | opn (d s) (h : Closes (d + 1) s) : Closes d ('(' :: s)
  | cls (d s) (hd : 0 < d) (h : Closes d s) : Closes (d + 1) (')' :: s)
  | other (d c s) (h1 : c ≠ '(') (h2 : c ≠ ')') (h : Closes d s) : Closes d (c :: s)

/-- The arguments: everything up to the next backslash; for `\t(`, up to the matching parenthesis
(or to the end of the block if it is missing). -/
def Args (name args next : List Char) : Prop :=
  (name = ['t'] ∧ args.head? = some '(' ∧ (Closes 0 args ∨ next = [])) ∨
  ((name ≠ ['t'] ∨ args.head? ≠ some '(') ∧ '\\' ∉ args ∧ (next = [] ∨ next.head? = some '\\'))

/-- A decimal number that fits 32 bits, `-` allowed in front. -/
def Number (num : List Char) (n : Int) : Prop :=
  ∃ ds, ds ≠ [] ∧ (∀ c ∈ ds, Digit c) ∧
    ((num = ds ∧ n = Nat.ofDigitChars 10 ds 0 ∧ n < 2 ^ 31) ∨
     (num = '-' :: ds ∧ n = -(Nat.ofDigitChars 10 ds 0 : Int) ∧ -(2 ^ 31) ≤ n))

/-- The drawing tag `\pN` stands after `a` in `content`; the number extends as far as digits and dashes do. -/
def DrawTag (content a : List Char) (n : Int) : Prop :=
  ∃ num rest, content = a ++ '\\' :: 'p' :: num ++ rest ∧ Number num n ∧
    ∀ c, rest.head? = some c → ¬ (Digit c ∨ c = '-')

/-- The drawing mode after a block: set by the last drawing tag, unchanged without one. -/
def ModeAfter (content : List Char) (before after : Bool) : Prop :=
  ((∀ a n, ¬ DrawTag content a n) ∧ after = before) ∨
  (∃ a n, DrawTag content a n ∧ (∀ a' n', DrawTag content a' n' → a'.length ≤ a.length) ∧ (after = true ↔ 0 < n))

/-- A block's content: its braces match, and are nested less than 100 deep (`d` counts the open ones,
the block's own included). -/
inductive Balanced : Nat → List Char → Prop
  | done : Balanced 1 []
  | opn (d s) (hd : d < 100) (h : Balanced (d + 1) s) : Balanced d ('{' :: s)
  | cls (d s) (hd : 0 < d) (h : Balanced d s) : Balanced (d + 1) ('}' :: s)
  | other (d c s) (h1 : c ≠ '{') (h2 : c ≠ '}') (h : Balanced d s) : Balanced d (c :: s)

/-- `Visible m s t`: the text `s`, starting in drawing mode `m`, shows `t`.  Blocks are not shown, nothing is
shown in drawing mode, `\n` and `\N` are line breaks, `\h` a hard space, any other backslash stands for
itself together with the next character. -/
inductive Visible : Bool → List Char → List Char → Prop
  | nil (m) : Visible m [] []
  | block (m m' content s t) (hb : Balanced 1 content) (hm : ModeAfter content m m') (h : Visible m' s t) :
      Visible m ('{' :: content ++ '}' :: s) t
  | brk (m c s t) (hc : c = 'n' ∨ c = 'N') (h : Visible m s t) :
      Visible m ('\\' :: c :: s) ((if m then [] else ['\n']) ++ t)
  | space (m s t) (h : Visible m s t) : Visible m ('\\' :: 'h' :: s) ((if m then [] else ['\u00A0']) ++ t)
  | other (m c s t) (hc : c ≠ 'n' ∧ c ≠ 'N' ∧ c ≠ 'h') (h : Visible m s t) :
      Visible m ('\\' :: c :: s) ((if m then [] else ['\\', c]) ++ t)
  | char (m c s t) (hc : c ≠ '{' ∧ c ≠ '\\') (h : Visible m s t) : Visible m (c :: s) ((if m then [] else [c]) ++ t)

end Verif.Spec.Ovr
