import Verif.Spec.Script
/-! # Embedded files -/
namespace Verif.Spec.Media

/-- Data whose last encoded line is not mistaken for a remark or an end: its length is not 1 or 27 more than a multiple
of 45, and where it is 3 more the first of the last three bytes is at least 4. -/
def Survives (data : List Nat) : Prop :=
  data.length % 45 ≠ 1 ∧ data.length % 45 ≠ 27 ∧ (data.length % 45 = 3 → 4 ≤ data.getD (data.length - 3) 0)

/-- The names listed by lines `key: name`. -/
inductive Named (key : List Char) : List (List Char) → List (List Char) → Prop
  | nil : Named key [] []
  | name {n n' ls ns} : Verif.Spec.InfoCmd.Stripped n n' → Named key ls ns → Named key ((key ++ ": ".toList ++ n) :: ls) (n' :: ns)
  | other {l ls ns} : (∀ n, l ≠ key ++ ": ".toList ++ n) → Named key ls ns → Named key (l :: ls) ns

/-- `pat` does not occur in `s`. -/
def Lacks (pat s : List Char) : Prop := ∀ a b, s ≠ a ++ pat ++ b

/-- The text falls into what stands before the first `hd`, the section from there to the line end before the next `[` that
begins a line, and the rest. -/
structure Place (hd c pre sec post : List Char) : Prop where
  text : c = pre ++ sec ++ post
  header : ∃ x, sec = hd ++ x
  first : ∀ a b, c = a ++ hd ++ b → pre.length ≤ a.length
  inside : Lacks "\n[".toList sec
  after : post = [] ∨ ∃ r, post = "\n[".toList ++ r

/-- Fonts or graphics. -/
def Kind (hd key : List Char) : Prop :=
  (hd = "[Fonts]".toList ∧ key = "fontname".toList) ∨ (hd = "[Graphics]".toList ∧ key = "filename".toList)

/-- Lines that can stand in an entry: no line end, no `[` first, no `key: ` first. -/
def DataLines (key : List Char) (ls : List (List Char)) : Prop :=
  ∀ l ∈ ls, '\n' ∉ l ∧ l.head? ≠ some '[' ∧ ∀ x, l ≠ key ++ ": ".toList ++ x

end Verif.Spec.Media
