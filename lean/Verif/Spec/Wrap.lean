import Verif.Model.Wrap
/-!
# Specification: word wrapping

Of the model only the data types are used: segments and fonts.
-/
namespace Verif.Spec.Wrap
open Verif.Wrap (Seg Font)

/-- The characters of a line, each with what its segment carries. -/
def tagged (l : List (Seg α)) : List (Char × α) := l.flatMap (fun s => s.text.map (fun c => (c, s.info)))

/-- The text of a line. -/
def textOf (l : List (Seg α)) : List Char := l.flatMap (fun s => s.text)

/-- The pieces into which a line is broken: at each break one blank goes. -/
inductive Broken : List (Char × α) → List (List (Char × α)) → Prop
  | whole (l) : Broken l [l]
  | brk (p a r ps) (h : Broken r ps) : Broken (p ++ (' ', a) :: r) (p :: ps)

/-- Words with one blank between them. -/
def join : List (List Char) → List Char
  | [] => []
  | [w] => w
  | w :: ws => w ++ ' ' :: join ws

/-- The texts of lines made of these words, with some blanks after the last. -/
def texts (k : Nat) : List (List (List Char)) → List (List Char)
  | [] => []
  | [p] => [join p ++ List.replicate k ' ']
  | p :: ps => join p :: texts k ps

/-- The words of a text, and how many blanks follow the last. -/
def Words (text : List Char) (ws : List (List Char)) (k : Nat) : Prop :=
  text = join ws ++ List.replicate k ' ' ∧ (∀ w ∈ ws, ' ' ∉ w) ∧ (ws.length = 1 ∨ ws.length ≥ 2 ∧ ws.getLast? ≠ some [])

/-- Before each blank that something other than blanks follows, there is a character that is no blank. -/
def SingleBlanks (t : List Char) : Prop :=
  ∀ a b, t = a ++ ' ' :: b → (∃ c ∈ b, c ≠ ' ') → ∃ a' c, a = a' ++ [c] ∧ c ≠ ' '

/-- The advance of a blank. -/
def blank (f : Font Rat) : Rat := max ((f.measure "x x".toList).1 - (f.measure "xx".toList).1) 0

/-- The advance of the words with blanks between them. -/
def advance (f : Font Rat) : List (List Char) → Rat
  | [] => 0
  | [w] => (f.measure w).1
  | w :: ws => (f.measure w).1 + blank f + advance f ws

/-- The ink of a line of words: the advance and the spacing between characters, without the bearing of the first word on the
left and of the last on the right. -/
def width (f : Font Rat) (ws : List (List Char)) : Rat :=
  f.sx * (advance f ws + f.spacing * (((join ws).length - 1 : Nat) : Rat) - (f.measure (ws.head?.getD [])).2.1 -
    max ((f.measure (ws.getLast?.getD [])).1 - (f.measure (ws.getLast?.getD [])).2.2) 0)

/-- One word always fits; more must not be wider than the limit. -/
def Fits (f : Font Rat) (limit : Rat) (p : List (List Char)) : Prop := p.length ≤ 1 ∨ width f p ≤ limit

/-- Every line fits, and none has room for the first word of the next. -/
def Packed (f : Font Rat) (limit : Rat) : List (List (List Char)) → Prop
  | [] => True
  | [p] => Fits f limit p
  | p :: q :: l => Fits f limit p ∧ limit < width f (p ++ q.take 1) ∧ Packed f limit (q :: l)

/-- `out` shows the words of `line` on lines `ps`; a line without any character is not shown, and the blanks after the last
word are kept. -/
def Lines (line : List (Seg α)) (out : List (List (Seg α))) (ps : List (List (List Char))) : Prop :=
  ∃ k, Words (textOf line) ps.flatten k ∧ (∀ p ∈ ps, p ≠ []) ∧ out.map textOf = (texts k ps).filter (fun t => !t.isEmpty)

/-- Exact arithmetic. -/
def exact : Verif.Wrap.Num Rat where
  zero := 0
  add := (· + ·)
  sub := (· - ·)
  mul := (· * ·)
  half := (· / 2)
  ofNat := fun n => (n : Rat)
  gt := fun a b => decide (b < a)
  max := max

end Verif.Spec.Wrap
