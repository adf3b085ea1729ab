/-!
# The effect of an event as a list of words
-/
namespace Verif.Spec.FluentEffect

/-- What can be done to the effect of an event. -/
inductive Change where
  | set (e : List Char)
  | clear
  | append (e : List Char)
  | prepend (e : List Char)

/-- The words there are afterwards. -/
def Change.words : Change → List (List Char) → List (List Char)
  | .set e, _ => [e]
  | .clear, _ => []
  | .append e, ws => ws ++ [e]
  | .prepend e, ws => e :: ws

/-- The words with blanks between them. -/
def spaced : List (List Char) → List Char
  | [] => []
  | [w] => w
  | w :: ws => w ++ ' ' :: spaced ws

end Verif.Spec.FluentEffect
