import Verif.Spec.EventCmd
/-!
# Specification: style lines

Nothing here refers to the model.
-/
namespace Verif.Spec.StyleCmd
open Verif.Spec.EventCmd (Lacks csv)

/-- A style line: the name, a comma, the other fields. -/
def style (name fields : List Char) : List Char := "Style: ".toList ++ name ++ ',' :: fields

/-- The text before a line: nothing, or something that ends with a line feed. -/
def Lead (x : List Char) : Prop := x = [] ∨ x.getLast? = some '\n'

/-- The text after a line. -/
def Tail (y : List Char) : Prop := y = [] ∨ y.head? = some '\n'

/-- No earlier place of the text reads like a style line whose name begins with `name`. -/
def Unseen (name x : List Char) : Prop := Lacks ("Style: ".toList ++ name) x

/-- `h` is the header of the styles section that the text `x` uses. -/
def Header (h x : List Char) : Prop :=
  h = "[V4+ Styles]".toList ∨
  (h = "[V4 Styles]".toList ∧ Lacks "[V4+ Styles]".toList x) ∨
  (h = "[Styles]".toList ∧ Lacks "[V4+ Styles]".toList x ∧ Lacks "[V4 Styles]".toList x)

/-- Items separated by a comma and a blank. -/
def spaced : List (List Char) → List Char
  | [] => []
  | [x] => x
  | x :: y :: l => x ++ ", ".toList ++ spaced (y :: l)

/-- The fields after the updates: the field whose name in the format line is updated has the new value,
every other field is unchanged. -/
def Updated (names : List (List Char)) (us : List (List Char × List Char)) (old new : List (List Char)) : Prop :=
  new.length = old.length ∧ ∀ i, i < old.length →
    (∃ u, u ∈ us ∧ names[i]? = some u.1 ∧ new[i]? = some u.2) ∨
    ((∀ u, u ∈ us → names[i]? ≠ some u.1) ∧ new[i]? = old[i]?)

/-- An event line with its style: layer, start and end before it. -/
def event (kind layer start fin style rest : List Char) : List Char :=
  kind ++ layer ++ ',' :: (start ++ ',' :: (fin ++ ',' :: (style ++ ',' :: rest)))

/-- `l'` is the event `l`, with the style `new` if its style is `old`.  The last condition: apart from the
style field, `old` does not stand between two commas. -/
def Restyled (old new : List Char) (l l' : List Char) : Prop :=
  ∃ kind layer start fin style rest,
    (kind = "Dialogue: ".toList ∨ kind = "Comment: ".toList) ∧
    ',' ∉ layer ∧ ',' ∉ start ∧ ',' ∉ fin ∧ ',' ∉ style ∧ Verif.Spec.EventCmd.Trimmed style ∧
    l = event kind layer start fin style rest ∧
    l' = event kind layer start fin (if style = old then new else style) rest ∧
    (style = old → start ≠ old ∧ fin ≠ old ∧ Lacks (',' :: old ++ [',']) (rest))

/-- `h` is the text up to the first event: something, the first `[Events]`, the rest of that line, and the
line after it. -/
def EventsHead (h : List Char) : Prop :=
  ∃ a b f, h = a ++ "[Events]".toList ++ b ++ '\n' :: (f ++ ['\n']) ∧
    Lacks "[Events]".toList (a ++ "[Events".toList) ∧ '\n' ∉ b ∧ '\n' ∉ f

end Verif.Spec.StyleCmd
