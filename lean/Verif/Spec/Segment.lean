import Verif.Spec.Override
import Verif.Spec.Color
import Verif.Spec.EventCmd
import Verif.Model.Segment
/-!
# Specification: styled segments

Of the model only the data types are used: `Tags`, `Field`, `Val`, `Seg`, `Move`, `Clip`, `Fade`, `KaraokeStyle`.
-/
namespace Verif.Spec.Segment
open Verif.Segment (Tags Field Val Seg Move Clip Fade KaraokeStyle)

/-! ## Splitting a block -/

/-- As many parentheses are closed as opened. -/
def Level (before : List Char) : Prop := before.count '(' = before.count ')'

/-- Pieces with a backslash between each two. -/
def backslashed : List (List Char) → List Char
  | [] => []
  | [p] => p
  | p :: q :: l => p ++ '\\' :: backslashed (q :: l)

/-- `pieces` is the text cut at its separating backslashes: those before which the parentheses are level. -/
structure Cut (content : List Char) (pieces : List (List Char)) : Prop where
  whole : backslashed pieces = content
  cuts : ∀ l p q r, pieces = l ++ p :: q :: r → Level (backslashed (l ++ [p]))
  all : ∀ l p r a b, pieces = l ++ p :: r → p = a ++ '\\' :: b →
    ¬ Level (backslashed (l ++ [a]))

/-! ## Blocks and text -/

/-- A block's content: its braces match (`d` counts the open ones, the block's own included). -/
inductive Braces : Nat → List Char → Prop
  | done : Braces 1 []
  | opn (d s) (h : Braces (d + 1) s) : Braces d ('{' :: s)
  | cls (d s) (hd : 0 < d) (h : Braces d s) : Braces (d + 1) ('}' :: s)
  | other (d c s) (h1 : c ≠ '{') (h2 : c ≠ '}') (h : Braces d s) : Braces d (c :: s)

/-- A block that is never closed. -/
def NeverClosed (s : List Char) : Prop := ∀ content r, s = content ++ '}' :: r → ¬ Braces 1 content

/-- `Raw s blocks t`: the text `s` contains these blocks, in order, and around them the text `t`.  `\n` and `\N` are line
breaks, `\h` a hard space, any other backslash stands for itself together with the next character.  A block that is not
closed extends to the end and does not count. -/
inductive Raw : List Char → List (List Char) → List Char → Prop
  | nil : Raw [] [] []
  | block (content s bs t) (hb : Braces 1 content) (h : Raw s bs t) :
      Raw ('{' :: content ++ '}' :: s) (content :: bs) t
  | opened (s) (hn : NeverClosed s) : Raw ('{' :: s) [] []
  | brk (c s bs t) (hc : c = 'n' ∨ c = 'N') (h : Raw s bs t) : Raw ('\\' :: c :: s) bs ('\n' :: t)
  | space (s bs t) (h : Raw s bs t) : Raw ('\\' :: 'h' :: s) bs ('\u00A0' :: t)
  | other (c s bs t) (hc : c ≠ 'n' ∧ c ≠ 'N' ∧ c ≠ 'h') (h : Raw s bs t) : Raw ('\\' :: c :: s) bs ('\\' :: c :: t)
  | lone : Raw ['\\'] [] ['\\']
  | char (c s bs t) (hc : c ≠ '{' ∧ c ≠ '\\') (h : Raw s bs t) : Raw (c :: s) bs (c :: t)

/-- Some block has a tag: its first backslash is followed by a letter or a digit. -/
def Tagged (blocks : List (List Char)) : Prop :=
  ∃ b ∈ blocks, ∃ a c d, b = a ++ '\\' :: c :: d ∧ '\\' ∉ a ∧ (Verif.Spec.Ovr.Letter c ∨ Verif.Spec.Ovr.Digit c)

/-- The tags after some blocks, where `step` says what one block does. -/
inductive After (step : List Char → Tags → Tags → Prop) : Tags → List (List Char) → Tags → Prop
  | none (t) : After step t [] t
  | more (t u v b bs) (h : step b t u) (hs : After step u bs v) : After step t (b :: bs) v

/-- The number of bytes of a text in UTF-8. -/
def bytes (s : List Char) : Nat := (s.map Char.utf8Size).sum

/-- A segment stands for a stretch `y` of the text without blocks, at the given bytes, and carries the tags of the blocks
before it, which are the first blocks of the text. -/
def Stretch (step : List Char → Tags → Tags → Prop) (start : Tags) (text : List Char) (g : Seg) : Prop :=
  ∃ x y z bs before, text = x ++ y ++ z ∧ bytes x = g.start ∧ bytes (x ++ y) = g.stop ∧ Raw x bs before ∧
    Raw y [] g.text ∧ After step start bs g.tags ∧ ∃ bs' after, Raw text (bs ++ bs') (before ++ after)

/-! ## Tags -/

/-- The value of a field, when an override has set it. -/
def valueOf (t : Tags) (f : Field) : Option Val := (t.vals.find? (fun p => p.1 = f)).map (·.2)

/-- Tags with a number as argument. -/
def numberTags : List (List Char × Field) :=
  [("fs".toList, .size), ("fscx".toList, .scaleX), ("fscy".toList, .scaleY), ("fsp".toList, .spacing),
   ("blur".toList, .blur), ("be".toList, .blurEdges), ("fax".toList, .shearX), ("fay".toList, .shearY),
   ("frz".toList, .rotationZ), ("fr".toList, .rotationZ), ("frx".toList, .rotationX), ("fry".toList, .rotationY),
   ("bord".toList, .border), ("xbord".toList, .borderX), ("ybord".toList, .borderY),
   ("shad".toList, .shadowDepth), ("xshad".toList, .shadowX), ("yshad".toList, .shadowY)]

/-- Tags with a colour. -/
def colorTags : List (List Char × Field) :=
  [("c".toList, .primary), ("1c".toList, .primary), ("2c".toList, .secondary), ("3c".toList, .outline), ("4c".toList, .shadow)]

/-- Tags with a transparency. -/
def alphaTags : List (List Char × Field) :=
  [("alpha".toList, .alpha), ("1a".toList, .alpha1), ("2a".toList, .alpha2), ("3a".toList, .alpha3), ("4a".toList, .alpha4)]

/-- Tags that are 0 or 1. -/
def flagTags : List (List Char × Field) :=
  [("b".toList, .bold), ("i".toList, .italic), ("u".toList, .underline), ("s".toList, .strikeout)]

/-- Tags with a small whole number. -/
def byteTags : List (List Char × Field) := [("q".toList, .wrapStyle), ("an".toList, .alignment), ("p".toList, .drawing)]

/-- Karaoke tags. -/
def karaokeTags : List (List Char × KaraokeStyle) :=
  [("k".toList, .basic), ("kf".toList, .fill), ("ko".toList, .outline), ("K".toList, .sweep)]

/-- An argument in parentheses: numbers with commas between. -/
def paren (args : List (List Char)) : List Char := '(' :: Verif.Spec.EventCmd.csv args ++ [')']

/-- A number that can stand in a list, with blanks around it. -/
def Item (f32 : List Char → Option Rat) (s : List Char) (v : Rat) : Prop :=
  ∃ a b c, s = a ++ b ++ c ∧ (∀ x ∈ a, x = ' ') ∧ (∀ x ∈ c, x = ' ') ∧ f32 b = some v ∧
    Verif.Spec.EventCmd.Trimmed b ∧ ',' ∉ b ∧ '(' ∉ b ∧ ')' ∉ b

/-- A whole number in decimal. -/
def dec (n : Nat) : List Char := Nat.toDigits 10 n

/-- A tag as it is written, and what it sets. -/
inductive Sets (f32 : List Char → Option Rat) : List Char → Field → Val → Prop
  | number (n f a v) (h : (n, f) ∈ numberTags) (ha : f32 a = some v)
      (hc : ∀ c, a.head? = some c → ¬ Verif.Spec.Ovr.Letter c) : Sets f32 (n ++ a) f (.number v)
  | color (n f p pb pg pr b g r) (h : (n, f) ∈ colorTags) (hp : p = pb ++ pg ++ pr) (hb : HexByte pb b) (hg : HexByte pg g) (hr : HexByte pr r) :
      Sets f32 (n ++ '&' :: 'H' :: p ++ ['&']) f (.color ⟨r, g, b, 0⟩)
  | alpha (n f p v) (h : (n, f) ∈ alphaTags) (hp : HexByte p v) :
      Sets f32 (n ++ '&' :: 'H' :: p ++ ['&']) f (.byte (255 - v))
  | flag (n f b) (h : (n, f) ∈ flagTags) : Sets f32 (n ++ [if b then '1' else '0']) f (.flag b)
  | byte (n f v) (h : (n, f) ∈ byteTags) (hv : v < 256) : Sets f32 (n ++ dec v) f (.byte v)
  | karaoke (n k d) (h : (n, k) ∈ karaokeTags) (hd : d < 2 ^ 32) : Sets f32 (n ++ dec d) .karaoke (.karaoke d k)
  | font (a) (h : a ≠ []) : Sets f32 ("fn".toList ++ a) .fontName (.text a)
  | pos (a b x y) (hx : Item f32 a x) (hy : Item f32 b y) : Sets f32 ("pos".toList ++ paren [a, b]) .position (.point x y)
  | org (a b x y) (hx : Item f32 a x) (hy : Item f32 b y) : Sets f32 ("org".toList ++ paren [a, b]) .origin (.point x y)
  | move (a b c d x1 y1 x2 y2) (h1 : Item f32 a x1) (h2 : Item f32 b y1) (h3 : Item f32 c x2) (h4 : Item f32 d y2) :
      Sets f32 ("move".toList ++ paren [a, b, c, d]) .movement (.move ⟨x1, y1, x2, y2, 0, 0⟩)
  | moveTimed (a b c d x1 y1 x2 y2 t1 t2) (h1 : Item f32 a x1) (h2 : Item f32 b y1) (h3 : Item f32 c x2) (h4 : Item f32 d y2)
      (ht1 : t1 < 2 ^ 32) (ht2 : t2 < 2 ^ 32) :
      Sets f32 ("move".toList ++ paren [a, b, c, d, dec t1, dec t2]) .movement (.move ⟨x1, y1, x2, y2, t1 / 10, t2 / 10⟩)
  | clip (i a b c d x1 y1 x2 y2) (h1 : Item f32 a x1) (h2 : Item f32 b y1) (h3 : Item f32 c x2) (h4 : Item f32 d y2) :
      Sets f32 ((if i then "iclip".toList else "clip".toList) ++ paren [a, b, c, d]) .clip (.clip ⟨x1, y1, x2, y2, i⟩)
  | fad (i o) (hi : i < 2 ^ 32) (ho : o < 2 ^ 32) :
      Sets f32 ("fad".toList ++ paren [dec i, dec o]) .fade (.fade ⟨0, 0, i / 10, o / 10, none, none, none⟩)
  | fade (a1 a2 a3 t1 t2 t3 t4) (h1 : a1 < 256) (h2 : a2 < 256) (h3 : a3 < 256) (h12 : t1 ≤ t2) (h34 : t3 ≤ t4)
      (g2 : t2 < 2 ^ 32) (g4 : t4 < 2 ^ 32) :
      Sets f32 ("fade".toList ++ paren [dec a1, dec a2, dec a3, dec t1, dec t2, dec t3, dec t4]) .fade
        (.fade ⟨a1, a3, t1 / 10, t4 / 10, some a2, some (t2 / 10 - t1 / 10), some (t4 / 10 - t3 / 10)⟩)

/-- A tag within a block: without a backslash, its parentheses level. -/
def Written (s : List Char) : Prop := '\\' ∉ s ∧ Level s

/-- The text of tags. -/
def tagsText : List (List Char) → List Char
  | [] => []
  | p :: l => '\\' :: p ++ tagsText l

/-- A tag as it is written, with the field and value it sets. -/
structure Entry where
  text : List Char
  field : Field
  val : Val

/-- A block made of these tags. -/
def blockText (l : List Entry) : List Char := tagsText (l.map (·.text))

/-- The tags are written as they should be. -/
def Good (f32 : List Char → Option Rat) (l : List Entry) : Prop := ∀ e ∈ l, Sets f32 e.text e.field e.val ∧ Written e.text

/-- The names that are understood, besides those that begin with a digit. -/
def knownNames : List (List Char) :=
  numberTags.map (·.1) ++ colorTags.map (·.1) ++ alphaTags.map (·.1) ++ flagTags.map (·.1) ++ byteTags.map (·.1) ++
  karaokeTags.map (·.1) ++
  ["a".toList, "fn".toList, "pos".toList, "org".toList, "move".toList, "clip".toList, "iclip".toList, "fad".toList, "fade".toList,
   "t".toList, "r".toList]

/-- What the last of these tags that sets a field sets it to. -/
def lastSet (f : Field) : List (Field × Val) → Option Val
  | [] => none
  | p :: l => match lastSet f l with
    | some v => some v
    | none => if p.1 = f then some p.2 else none

end Verif.Spec.Segment
