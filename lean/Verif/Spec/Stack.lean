import Verif.Model.Stack
import Verif.Spec.Collision
/-!
# Specification: simultaneous subtitles are stacked
-/
namespace Verif.Spec.Stack
open Verif
open Verif.Stack (Ev Text Layer Pipe)
open Verif.Collision (Box)
open Verif.Spec.Coll (Apart OnScreen Overlap)

/-- `a` is drawn no later than `b`: lower layers first, within a layer the earlier start first. -/
def Before (a b : Ev) : Prop := a.layer < b.layer ∨ (a.layer = b.layer ∧ a.start ≤ b.start)

/-- The two events stand level in that order. -/
def Level (a b : Ev) : Prop := a.layer = b.layer ∧ a.start = b.start

instance (a b : Ev) : Decidable (Level a b) := by unfold Level; infer_instance

/-- `l` lists the events of `evs` in drawing order, those that stand level in the order of `evs`. -/
structure Drawn (evs l : List Ev) : Prop where
  same : l.Perm evs
  order : l.Pairwise Before
  level : ∀ e : Ev, l.filter (fun x => decide (Level x e)) = evs.filter (fun x => decide (Level x e))

/-- The text says where it stands: `\pos` or `\move` is written in it. -/
def Pinned (e : Ev) : Prop := ∃ a b : Str, e.text = a ++ "\\pos".toList ++ b ∨ e.text = a ++ "\\move".toList ++ b

/-- The room a line of text is taken to need: half its size for every character, and its size without the DPI factor in height. -/
def room (p : Pipe) (t : Text) : Box :=
  ⟨t.x, t.y, (t.text.length : Rat) * t.size / 2, t.size / max p.dpi (1 / 100)⟩

/-- `b` is the smallest box around the rooms of all lines of text among the layers. -/
structure Around (p : Pipe) (ls : List Layer) (b : Box) : Prop where
  inside : ∀ t, Layer.text t ∈ ls → b.x ≤ (room p t).x ∧ b.y ≤ (room p t).y ∧
    (room p t).x + (room p t).w ≤ b.x + b.w ∧ (room p t).y + (room p t).h ≤ b.y + b.h
  left : ∃ t, Layer.text t ∈ ls ∧ (room p t).x = b.x
  top : ∃ t, Layer.text t ∈ ls ∧ (room p t).y = b.y
  right : ∃ t, Layer.text t ∈ ls ∧ (room p t).x + (room p t).w = b.x + b.w
  bottom : ∃ t, Layer.text t ∈ ls ∧ (room p t).y + (room p t).h = b.y + b.h

/-- Nothing but the height on the screen differs; lines of text are moved by exactly `dy`, drawings not at all. -/
def Moved (dy : Rat) : Layer → Layer → Prop
  | .text t, .text t' => t'.x = t.x ∧ t'.y = t.y + dy ∧ t'.size = t.size ∧ t'.text = t.text ∧ t'.rest = t.rest
  | .raster _ r, .raster _ r' => r' = r
  | .vector r, .vector r' => r' = r
  | _, _ => False

/-- The layers `ls'` are the layers `ls`, moved by `dy`. -/
def AllMoved (dy : Rat) (ls ls' : List Layer) : Prop :=
  ls'.length = ls.length ∧ ∀ (i : Nat) (a b : Layer), ls[i]? = some a → ls'[i]? = some b → Moved dy a b

/-- `f` is the alignment written right after the first `\an` in the text. -/
def Written (e : Ev) (f : Nat) : Prop :=
  ∃ (a b : Str) (c : Char), e.text = a ++ "\\an".toList ++ c :: b ∧
    (∀ a' b' : Str, e.text = a' ++ "\\an".toList ++ b' → a.length ≤ a'.length) ∧ c.toNat = 48 + f ∧ 1 ≤ f ∧ f ≤ 9

/-- The alignment a style asks for, if its field is one of the numbers 1 to 9. -/
def Styled (p : Pipe) (e : Ev) (f : Nat) : Prop :=
  ∃ s, p.styles.get e.style = some s ∧ Segment.parseU8 s = some f ∧ 1 ≤ f ∧ f ≤ 9

/-- The alignment that decides in which direction an event gives way: the one written in the text, else the one of its style,
else bottom centre. -/
def Row (p : Pipe) (e : Ev) (f : Nat) : Prop :=
  Written e f ∨ (∀ g, ¬ Written e g) ∧ (Styled p e f ∨ (∀ g, ¬ Styled p e g) ∧ f = 2)

/-- The layers `out` are those of the events one after the other: `parts` lists every event in drawing order with its layers. -/
structure Stacking (p : Pipe) (draw : Ev → Outcome (List Layer)) (evs : List Ev) (out : List Layer)
    (parts : List (Ev × List Layer)) : Prop where
  /-- Every event, in drawing order. -/
  drawn : Drawn evs (parts.map (·.1))
  /-- Their layers one after the other. -/
  joined : out = parts.flatMap (·.2)
  /-- An event is moved as a whole, up or down, away from its edge of the screen, or not at all. -/
  moved : ∀ e ls, (e, ls) ∈ parts → ∃ ls0, draw e = .ok ls0 ∧
    (ls = ls0 ∨ ¬ Pinned e ∧ ∃ dy, AllMoved dy ls0 ls ∧ (1 / 2 < dy ∨ dy < -(1 / 2)) ∧ ∀ b f, Around p ls0 b → OnScreen p.screenH b →
      Row p e f → if 1 ≤ f ∧ f ≤ 3 then dy < 0 else 0 < dy)
  /-- Two events of one layer that say nothing about their position are kept three pixels apart, unless the later one touches
  an edge of the screen. -/
  apart : parts.Pairwise fun a b => a.1.layer = b.1.layer → ¬ Pinned a.1 → ¬ Pinned b.1 →
    (∀ t, Layer.text t ∈ b.2 → 1 / 2 < (room p t).y ∧ (room p t).y + (room p t).h < p.screenH - 1 / 2) →
    ∀ t t', Layer.text t ∈ a.2 → Layer.text t' ∈ b.2 → Apart 3 (room p t') (room p t)
  /-- Nothing is moved without need. -/
  still : ∀ (before after : List (Ev × List Layer)) (e : Ev) (ls ls0 : List Layer) (b : Box),
    parts = before ++ (e, ls) :: after → draw e = .ok ls0 → Around p ls0 b → OnScreen p.screenH b →
    (∀ e' ls' b', (e', ls') ∈ before → e'.layer = e.layer → ¬ Pinned e' → Around p ls' b' → Apart (9 / 2) b b') → ls = ls0

end Verif.Spec.Stack
