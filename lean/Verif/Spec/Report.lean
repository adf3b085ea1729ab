import Verif.Model.Range
/-!
# What a command should report

Of the model only the type of ranges is used.
-/
namespace Verif.Spec.Report

/-- The number of bytes of a text. -/
def bytes (s : List Char) : Nat := (s.map Char.utf8Size).sum

/-- All that changed lies in the range (of the new text): before it and behind it stands what stood there. -/
def Covers (before after : List Char) (r : Verif.Pos.Range) : Prop :=
  ∃ a old new b, before = a ++ old ++ b ∧ after = a ++ new ++ b ∧ r.start = bytes a ∧ r.fin = bytes a + bytes new

/-- A report is right: no report means no change, otherwise all changes lie in the range and the cursor stands at the end
of the text. -/
def Right (before after : List Char) : Option (Verif.Pos.Range × Nat) → Prop
  | none => after = before
  | some (r, cursor) => Covers before after r ∧ cursor = bytes after

/-- A report of one change: all changes lie in the range, and the cursor stands at its end. -/
def SaysOne (before after : List Char) (rep : Option (Verif.Pos.Range × Nat)) : Prop :=
  ∃ r, rep = some (r, r.fin) ∧ Covers before after r

/-- What an event line begins with. -/
def Mark (m : List Char) : Prop := m = "Dialogue:".toList ∨ m = "Comment:".toList

/-- `Dialogue:` and `Comment:` stand only at the beginning of lines. -/
def MarksBegin (s : List Char) : Prop :=
  ∀ a m b, Mark m → s = a ++ m ++ b → a = [] ∨ a.getLast? = some '\n'

/-- `Dialogue:` and `Comment:` stand nowhere. -/
def Unmarked (s : List Char) : Prop := ∀ a m b, Mark m → s ≠ a ++ m ++ b

end Verif.Spec.Report
