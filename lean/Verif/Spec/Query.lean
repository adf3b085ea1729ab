import Verif.Model.Query
import Verif.Spec.Time
/-!
# Specification: which events a query means, and their order

Of the model only the data types are used.
-/
namespace Verif.Spec.Query
open Verif
open Verif.Ast (Event)
open Verif.Parser (Section)
open Verif.Query (Info Filter Crit SortOpt Query)

/-- All events of a script, in order. -/
def allEvents : List Section → List Event
  | [] => []
  | .events l :: r => l.map (·.1) ++ allEvents r
  | _ :: r => allEvents r

/-- A text is a time `h:m:s.c` of `v` centiseconds. -/
def Clock (s : Str) (v : Nat) : Prop :=
  ∃ h m a b H M S C, s = h ++ ':' :: m ++ ':' :: a ++ '.' :: b ∧ U32Text h H ∧ U32Text m M ∧ U32Text a S ∧ U32Text b C ∧
    v = H * 360000 + M * 6000 + S * 100 + C

/-- The pattern occurs in the text. -/
def In (p s : Str) : Prop := ∃ a b, s = a ++ p ++ b

/-- The event has everything the filter asks for; letters are compared after `fold`. -/
structure Meets (fold : Str → Str) (f : Filter) (e : Event) : Prop where
  kind : ∀ k, f.kind = some k → e.kind = k
  style : ∀ p, f.style = some p → In (fold p) (fold e.style)
  speaker : ∀ p, f.speaker = some p → In (fold p) (fold e.name)
  text : ∀ p, f.text = some p → In (fold p) (fold e.text)
  effect : ∀ p, f.effect = some p → In (fold p) (fold e.effect)
  layer : ∀ n, f.layer = some n → U32Text e.layer n
  time : ∀ a b, f.time = some (a, b) → ∃ s t, Clock e.start s ∧ Clock e.stop t ∧ a ≤ s ∧ t ≤ b

/-- The number a text stands for in a comparison: its value, or 0. -/
def Or0 (P : Str → Nat → Prop) (s : Str) (n : Nat) : Prop := P s n ∨ (∀ m, ¬ P s m) ∧ n = 0

/-- The number an event is sorted by. -/
def Num (c : Crit) (i : Info) (n : Nat) : Prop :=
  match c with
  | .start => Or0 Clock i.event.start n
  | .stop => Or0 Clock i.event.stop n
  | .duration => ∃ s t, Or0 Clock i.event.start s ∧ Or0 Clock i.event.stop t ∧ n = t - s
  | .layer => Or0 U32Text i.event.layer n
  | .index => n = i.index
  | _ => False

/-- The text an event is sorted by. -/
def Txt (c : Crit) (i : Info) (s : Str) : Prop :=
  match c with
  | .style => s = i.event.style
  | .speaker => s = i.event.name
  | .text => s = i.event.text
  | _ => False

/-- `a` is smaller than `b`. -/
def Less (c : Crit) (a b : Info) : Prop :=
  (∃ m n, Num c a m ∧ Num c b n ∧ m < n) ∨ (∃ s t, Txt c a s ∧ Txt c b t ∧ s < t)

/-- `a` and `b` are equal. -/
def Same (c : Crit) (a b : Info) : Prop := (∃ n, Num c a n ∧ Num c b n) ∨ (∃ s, Txt c a s ∧ Txt c b s)

/-- `a` comes before `b`: first by the criterion, then by the second one, then by place in the script. -/
def Before (o : SortOpt) (a b : Info) : Prop :=
  (if o.ascending then Less o.crit a b else Less o.crit b a) ∨
  (Same o.crit a b ∧ ∃ c, o.secondary = some c ∧ (if o.ascending then Less c a b else Less c b a)) ∨
  (Same o.crit a b ∧ (∀ c, o.secondary = some c → Same c a b) ∧ a.index < b.index)

/-- The order a query asks for. -/
def Ordered (q : Query) (a b : Info) : Prop :=
  match q.sort with
  | none => a.index < b.index
  | some o => Before o a b

/-- All times fit in 32 bits. -/
def Fits (e : Event) : Prop := ∀ v, Clock e.start v ∨ Clock e.stop v → v < 2 ^ 32

end Verif.Spec.Query
