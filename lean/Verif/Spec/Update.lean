import Verif.Model.Update
import Verif.Spec.InfoCmd
/-!
# Specification: changing a parsed script

Of the model the data types are used, and the readers of single lines (`parseEvent`, `parseStyle`), which have their own
properties.
-/
namespace Verif.Spec.Update
open Verif.Ast
open Verif.Parser
open Verif.Update (Content Change Op Err Delta)
open Verif.Spec.InfoCmd (Stripped)

/-- The places of what a section holds. -/
def places : Section → List Span
  | .info _ s => [s]
  | .styles l => l.map (·.2)
  | .events l => l.map (·.2)
  | .fonts l => l.map (·.span)
  | .graphics l => l.map (·.span)

/-- Places that follow each other. -/
def Ordered (l : List Span) : Prop := (∀ s ∈ l, s.start ≤ s.stop) ∧ l.Pairwise (fun a b => a.stop ≤ b.start)

/-- The offset is in the place. -/
def Within (o : Nat) (s : Span) : Prop := s.start ≤ o ∧ o < s.stop

/-- The offset is between the beginning of the first and the end of the last thing in the section. -/
def Spanned (o : Nat) (s : Section) : Prop :=
  ∃ a b, (places s).head? = some a ∧ (places s).getLast? = some b ∧ a.start ≤ o ∧ o < b.stop

/-- Where a line read by itself is said to be: nowhere, but on line `n`. -/
def nowhere (n : Nat) : Span := ⟨0, 0, n, 1⟩

/-- Words that make a line something else than a field. -/
def reserved : List (List Char) :=
  ["Style".toList, "Dialogue".toList, "Comment".toList, "Picture".toList, "Sound".toList, "Movie".toList, "Command".toList,
   "Format".toList]

/-- What a line says when the format lists are those of the script. -/
inductive Reads (s : Script) (n : Nat) (line : List Char) : Content → Prop
  | style {d d' st} : Stripped line ("Style:".toList ++ d) → Stripped d d' →
      parseStyle d' (s.stylesFmt.getD styleFormat) = some st → Reads s n line (.style (st, nowhere n))
  | event {x e} : Stripped line x → parseEvent x (s.eventsFmt.getD eventFormat) = some e → Reads s n line (.event (e, nowhere n))
  | field {k v k' v'} : Stripped line (k ++ ':' :: v) → ':' ∉ k → k ∉ reserved → Stripped k k' → Stripped v v' →
      Reads s n line (.field k' v')

/-- The new content takes the place of the old in a section. -/
inductive Put (o : Nat) : Section → Content → Content → Section → Prop
  | style {a old b new} : (∀ x ∈ a, ¬ Within o x.2) → Within o old.2 →
      Put o (.styles (a ++ old :: b)) (.style new) (.style old) (.styles (a ++ new :: b))
  | event {a old b new} : (∀ x ∈ a, ¬ Within o x.2) → Within o old.2 →
      Put o (.events (a ++ old :: b)) (.event new) (.event old) (.events (a ++ new :: b))
  | field {a k v b v' sp} : (∀ x ∈ a, x.1 ≠ k) → Put o (.info (a ++ (k, v) :: b) sp) (.field k v') (.field k v) (.info (a ++ (k, v') :: b) sp)
  | newField {a k v sp} : (∀ x ∈ a, x.1 ≠ k) → Put o (.info a sp) (.field k v) (.field k []) (.info (a ++ [(k, v)]) sp)

/-- The first section around the offset is changed, and nothing else. -/
def Updated (o : Nat) (new old : Content) (secs secs' : List Section) : Prop :=
  ∃ pre s s' post, secs = pre ++ s :: post ∧ (∀ x ∈ pre, ¬ Spanned o x) ∧ Spanned o s ∧ Put o s new old s' ∧
    secs' = pre ++ s' :: post

/-- The script with these sections. -/
def withSecs (s : Script) (l : List Section) : Script := { s with sections := l }

/-- One update of a script. -/
def Step (s : Script) (op : Op) (old : Content) (s' : Script) : Prop :=
  ∃ new l, Reads s op.number op.line new ∧ Updated op.offset new old s.sections l ∧ s' = withSecs s l

/-- Several updates, one after the other. -/
inductive Steps : Script → List Op → Script → Prop
  | nil {s} : Steps s [] s
  | cons {s op old t l u} : Step s op old t → Steps t l u → Steps s (op :: l) u

/-- Several updates, where those that cannot be made are left out: what was replaced, and the offsets that failed. -/
inductive Tried : Script → List Op → List (Nat × Content) → List Nat → Script → Prop
  | nil {s} : Tried s [] [] [] s
  | done {s op old t l up fl u} : Step s op old t → Tried t l up fl u → Tried s (op :: l) ((op.offset, old) :: up) fl u
  | failed {s op l up fl u} : (∀ old t, ¬ Step s op old t) → Tried s l up fl u → Tried s (op :: l) up (op.offset :: fl) u

/-- `new` is put at the end of the first section that `mk` makes, or in a new section at the end. -/
def Extended {α : Type} (mk : List α → Section) (new : List α) (secs secs' : List Section) : Prop :=
  (∃ pre l post, secs = pre ++ mk l :: post ∧ (∀ s ∈ pre, ∀ m, s ≠ mk m) ∧ secs' = pre ++ mk (l ++ new) :: post) ∨
  ((∀ s ∈ secs, ∀ m, s ≠ mk m) ∧ secs' = secs ++ [mk new])

/-- What may be added after the updates. -/
def ExtendedBy {α : Type} (mk : List α → Section) : Option (List α) → List Section → List Section → Prop
  | none, a, b => b = a
  | some new, a, b => Extended mk new a b

/-- The kind of a section. -/
def kindOf : Section → Verif.Update.Kind
  | .info _ _ => .info
  | .styles _ => .styles
  | .events _ => .events
  | .fonts _ => .fonts
  | .graphics _ => .graphics

/-- Changes of sections made one after the other on a list. -/
def replay : List Change → List Section → Option (List Section)
  | [], l => some l
  | .sectionAdded s i :: cs, l => if i ≤ l.length then replay cs (l.take i ++ s :: l.drop i) else none
  | .sectionRemoved k i :: cs, l => match l[i]? with
    | some s => if kindOf s = k then replay cs (l.take i ++ l.drop (i + 1)) else none
    | none => none
  | _ :: _, _ => none

/-- What a section says, without the places. -/
inductive Says where
  | info (fields : List (List Char × List Char))
  | styles (l : List Style)
  | events (l : List Event)
  | fonts (l : List (List Char × List (List Char)))
  | graphics (l : List (List Char × List (List Char)))
deriving DecidableEq

/-- What a section says. -/
def says : Section → Says
  | .info f _ => .info f
  | .styles l => .styles (l.map (·.1))
  | .events l => .events (l.map (·.1))
  | .fonts l => .fonts (l.map (fun m => (m.filename, m.data)))
  | .graphics l => .graphics (l.map (fun m => (m.filename, m.data)))

/-- A delta carried out: the sections at the numbers given are replaced or left out, and the new ones put at the end. -/
def carried (d : Delta) (old : List Section) : List Section :=
  (old.zipIdx.filterMap (fun p =>
    if p.2 ∈ d.removed then none
    else match d.modified.find? (fun m => m.1 = p.2) with
      | some m => some m.2
      | none => some p.1)) ++ d.added

end Verif.Spec.Update
