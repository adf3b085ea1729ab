/-!
# Places in a text
-/
namespace Verif.Spec.Tracked

/-- The number of bytes of a text. -/
def bytes (s : List Char) : Nat := (s.map Char.utf8Size).sum

/-- `n` is the byte offset of a place between characters of `s`, or at one of its ends. -/
def Place (s : List Char) (n : Nat) : Prop := ∃ a b, s = a ++ b ∧ n = bytes a

end Verif.Spec.Tracked
