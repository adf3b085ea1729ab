import Verif.Spec.EventCmd
/-!
# Specification: the properties of a script, as lines of text

Nothing here refers to the model.
-/
namespace Verif.Spec.InfoCmd
open Verif.Spec.EventCmd (Lacks Trimmed White)

/-- `pre ++ sec ++ post` is a script whose (first) information section is `sec`: it begins with the first
`[Script Info]` and reaches up to the next line beginning with `[`, or the end. -/
structure Section (pre sec post : List Char) : Prop where
  first : Lacks "[Script Info]".toList (pre ++ "[Script Info".toList)
  header : ∃ x, sec = "[Script Info]".toList ++ x
  inside : Lacks "\n[".toList sec
  after : post = [] ∨ ∃ y, post = "\n[".toList ++ y

/-- A property: name and value. -/
abbrev Item := List Char × List Char

/-- Its line. -/
def line (e : Item) : List Char := e.1 ++ ": ".toList ++ e.2

/-- A section with these properties, and further text `extra` (blank lines, comments) at its end. -/
def info (es : List Item) (extra : List Char) : List Char :=
  "[Script Info]".toList ++ es.flatMap (fun e => '\n' :: line e) ++ extra

/-- The properties are lines, and the further text begins on a line of its own. -/
structure Lines (es : List Item) (extra : List Char) : Prop where
  one : ∀ e ∈ es, '\n' ∉ line e
  extra : extra = [] ∨ extra.head? = some '\n'

/-- The name `q` followed by `: ` occurs in no line of the section except the property's own. -/
def Tidy (q : List Char) (es : List Item) (extra : List Char) : Prop :=
  (∀ e ∈ es, e.1 ≠ q → Lacks (q ++ ": ".toList) (line e)) ∧ Lacks (q ++ ": ".toList) extra

/-- The value of a property: that of the first line with its name. -/
inductive Value (q : List Char) : List Item → Option (List Char) → Prop
  | nil : Value q [] none
  | here {v es} : Value q ((q, v) :: es) (some v)
  | later {e es r} : e.1 ≠ q → Value q es r → Value q (e :: es) r

/-- The properties after `p` has been given the value `v`: its (first) line is changed. -/
inductive Changed (p v : List Char) : List Item → List Item → Prop
  | here {w es} : Changed p v ((p, w) :: es) ((p, v) :: es)
  | later {e es es'} : e.1 ≠ p → Changed p v es es' → Changed p v (e :: es) (e :: es')

/-- The same, or a new line at the top if there was none. -/
def Put (p v : List Char) (es es' : List Item) : Prop :=
  Changed p v es es' ∨ ((∀ e ∈ es, e.1 ≠ p) ∧ es' = (p, v) :: es)

/-- The properties without the (first) line of `p`. -/
inductive Dropped (p : List Char) : List Item → List Item → Prop
  | nil : Dropped p [] []
  | here {w es} : Dropped p ((p, w) :: es) es
  | later {e es es'} : e.1 ≠ p → Dropped p es es' → Dropped p (e :: es) (e :: es')

/-- `w` is `v` without the white space around it. -/
def Stripped (v w : List Char) : Prop :=
  Trimmed w ∧ ∃ a b, v = a ++ w ++ b ∧ (∀ c ∈ a, White c) ∧ (∀ c ∈ b, White c)

end Verif.Spec.InfoCmd
