import Verif.Spec.Formats
import Verif.Spec.Time
/-!
# Specification: the events of a script, as rows of text

Nothing here refers to the model.
-/
namespace Verif.Spec.EventCmd

/-- `pat` does not occur in `s`. -/
def Lacks (pat s : List Char) : Prop := ∀ a b, s ≠ a ++ pat ++ b

/-- `h` ends with the format line of the (first) events section: it consists of something before, the
first `[Events]`, then the first `Format:` after it and the rest of that line. -/
def Head (h : List Char) : Prop :=
  ∃ a b c, h = a ++ "[Events]".toList ++ b ++ "Format:".toList ++ c ++ ['\n'] ∧
    Lacks "[Events]".toList (a ++ "[Events".toList) ∧
    Lacks "Format:".toList ("[Events]".toList ++ b ++ "Format".toList) ∧ '\n' ∉ c

/-- An event: a line that begins with `Dialogue:` or `Comment:`. -/
def IsEvent (l : List Char) : Prop := ∃ t, l = "Dialogue:".toList ++ t ∨ l = "Comment:".toList ++ t

/-- A line of the events section: one line, not empty and not a section header. -/
def Row (l : List Char) : Prop := '\n' ∉ l ∧ l ≠ [] ∧ l.head? ≠ some '['

/-- Lines, each ended by a line feed. -/
def table (rows : List (List Char)) : List Char := rows.flatMap (fun r => r ++ ['\n'])

/-- What may follow the last line of the section: the end of the file, a blank line or a header. -/
def End (t : List Char) : Prop := t = [] ∨ t.head? = some '\n' ∨ t.head? = some '['

/-- Number of events among the rows. -/
inductive Count : List (List Char) → Nat → Prop
  | nil : Count [] 0
  | event {r rs n} : IsEvent r → Count rs n → Count (r :: rs) (n + 1)
  | other {r rs n} : ¬ IsEvent r → Count rs n → Count (r :: rs) n

/-- `Each R i rows rows'`: the rows are the same except for the events; the event with index `j` (the
first one having index `i`) is related to the new one by `R j`. -/
inductive Each (R : Nat → List Char → List Char → Prop) : Nat → List (List Char) → List (List Char) → Prop
  | nil {i} : Each R i [] []
  | event {i r r' rs rs'} : IsEvent r → R i r r' → Each R (i + 1) rs rs' → Each R i (r :: rs) (r' :: rs')
  | other {i r rs rs'} : ¬ IsEvent r → Each R i rs rs' → Each R i (r :: rs) (r :: rs')

/-- `Without is i rows rows'`: the rows without the events whose index is in `is`. -/
inductive Without (is : List Nat) : Nat → List (List Char) → List (List Char) → Prop
  | nil {i} : Without is i [] []
  | drop {i r rs rs'} : IsEvent r → i ∈ is → Without is (i + 1) rs rs' → Without is i (r :: rs) rs'
  | keep {i r rs rs'} : IsEvent r → i ∉ is → Without is (i + 1) rs rs' → Without is i (r :: rs) (r :: rs')
  | other {i r rs rs'} : ¬ IsEvent r → Without is i rs rs' → Without is i (r :: rs) (r :: rs')

/-- The line with its type switched between dialogue and comment. -/
def Toggled (r r' : List Char) : Prop :=
  ∃ x, (r = "Dialogue:".toList ++ x ∧ r' = "Comment:".toList ++ x) ∨
    (r = "Comment:".toList ++ x ∧ r' = "Dialogue:".toList ++ x)

/-- An empty selection means all events. -/
def Selected (is : List Nat) (i : Nat) : Prop := is = [] ∨ i ∈ is

/-- Comma-separated values. -/
def csv : List (List Char) → List Char
  | [] => []
  | [x] => x
  | x :: y :: l => x ++ ',' :: csv (y :: l)

/-- The fields of an event. -/
structure Fields where
  comment : Bool
  layer : List Char
  start : List Char
  fin : List Char
  style : List Char
  name : List Char
  ml : List Char
  mr : List Char
  mv : List Char
  effect : List Char
  text : List Char
  deriving DecidableEq

/-- An event line as these tools write it. -/
def Fields.line (f : Fields) : List Char :=
  (if f.comment then "Comment: ".toList else "Dialogue: ".toList) ++
  csv [f.layer, f.start, f.fin, f.style, f.name, f.ml, f.mr, f.mv, f.effect, f.text]

/-- White space (Unicode). -/
def White (c : Char) : Prop :=
  (9 ≤ c.toNat ∧ c.toNat ≤ 13) ∨ c.toNat = 32 ∨ c.toNat = 0x85 ∨ c.toNat = 0xA0 ∨ c.toNat = 0x1680 ∨
  (0x2000 ≤ c.toNat ∧ c.toNat ≤ 0x200A) ∨ c.toNat = 0x2028 ∨ c.toNat = 0x2029 ∨ c.toNat = 0x202F ∨
  c.toNat = 0x205F ∨ c.toNat = 0x3000

/-- No blanks at either end. -/
def Trimmed (s : List Char) : Prop :=
  (∀ c, s.head? = some c → ¬ White c) ∧ (∀ c, s.getLast? = some c → ¬ White c)

/-- A field that needs no care: no comma, no blanks at its ends. -/
def Plain (s : List Char) : Prop := ',' ∉ s ∧ Trimmed s

/-- Every comma of the text stands inside parentheses (is followed by different numbers of opening and
closing ones), and the parentheses of the text balance. -/
def Guarded (s : List Char) : Prop :=
  (∀ a b, s = a ++ ',' :: b → b.count '(' ≠ b.count ')') ∧ s.count '(' = s.count ')'

/-- The fields the event commands handle: plain fields, an effect in ASCII, commas of the text in
parentheses; the layer and the text do not let the outer blanks vanish. -/
structure Fields.Safe (f : Fields) : Prop where
  plain : ∀ x ∈ [f.layer, f.start, f.fin, f.style, f.name, f.ml, f.mr, f.mv, f.effect], Plain x
  ascii : ∀ c ∈ f.effect, c.toNat < 128
  text : Trimmed f.text
  guarded : Guarded f.text

/-- A time of `n` centiseconds, written `H:MM:SS.cc`. -/
def timeStamp (n : Nat) : List Char :=
  Fmt.assStamp (n / 360000) (n / 6000 % 60) (n / 100 % 60) (n % 100)

/-- `n` is the time `t` moved by `off`, but not below zero. -/
def Moved (t : Nat) (off : Int) (n : Nat) : Prop := (n : Int) = max 0 (t + off)

/-- The times of `f` are `s` and `e` (in centiseconds); they and their moved values fit in 31 bits. -/
structure InRange (f : Fields) (so eo : Int) (s e : Nat) : Prop where
  start : TimeText f.start s
  fin : TimeText f.fin e
  s31 : s < 2 ^ 31
  e31 : e < 2 ^ 31
  lowS : -(2 ^ 31) ≤ s + so
  highS : s + so < 2 ^ 31
  lowE : -(2 ^ 31) ≤ e + eo
  highE : e + eo < 2 ^ 31

/-- `f'` is the event `f` with its start moved by `so` and its end by `eo`; the end is put one centisecond
after the start if it would not come after it. -/
def Retimed (f : Fields) (so eo : Int) (f' : Fields) : Prop :=
  ∃ s e s' e', InRange f so eo s e ∧ Moved s so s' ∧ Moved e eo e' ∧
    f' = { f with start := timeStamp s', fin := timeStamp (max e' (s' + 1)) }

end Verif.Spec.EventCmd
