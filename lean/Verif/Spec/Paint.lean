import Verif.Model.Paint
/-!
# What painting text means

Nothing here uses the functions of the model, only its data.
-/
namespace Verif.Spec.Paint
open Verif
open Verif.Paint (Data Effect Aff Env Out State Shaped Clip)
open Verif.Color (Rgba)

/-- The text is turned out of the plane. -/
def Tilted (d : Data) : Prop := ∃ x y z o, Effect.rotation x y z o ∈ d.effects ∧ (x ≠ 0 ∨ y ≠ 0)

/-- The text is blurred. -/
def Blurred (d : Data) : Prop := ∃ r, Effect.blur r ∈ d.effects

/-- Nothing is cached. -/
def fresh {G T : Type} : State G T := ⟨[], []⟩

/-- A tile that remembers what it shows. -/
structure Sym (G : Type) where
  g : G
  t : Aff
  stroke : Option (Rat × Rat)
deriving DecidableEq

/-- The rasteriser makes tiles that remember what they show, with their corner wherever it likes. -/
def Remembers {G : Type} (env : Env G (Sym G)) : Prop :=
  ∃ corner : G → Aff → Option (Rat × Rat) → Int × Int, ∀ g t s,
    env.raster g t s = some (⟨g, { t with tx := t.tx - ((corner g t s).1 : Rat), ty := t.ty - ((corner g t s).2 : Rat) }, s⟩, corner g t s)

/-- A shape on the frame: outlines, how they are transformed, stroked or filled, and the colour. -/
structure Ink (G : Type) where
  g : G
  t : Aff
  stroke : Option (Rat × Rat)
  c : Rgba
deriving DecidableEq

/-- The shapes shown by something painted without clipping. -/
def inks {G : Type} : Out G (Sym G) → List (Ink G)
  | .bitmap t none x y c => [⟨t.g, { t.t with tx := t.t.tx + (x : Rat), ty := t.t.ty + (y : Rat) }, t.stroke, c⟩]
  | .fill g t s c none => [⟨g, t, s, c⟩]
  | _ => []

/-- At most `e` apart. -/
def within (e a b : Rat) : Prop := a ≤ b + e ∧ b ≤ a + e

/-- The same shape in the same colour, at most `e` pixels away. -/
structure Close {G : Type} (e : Rat) (a b : Ink G) : Prop where
  g : a.g = b.g
  stroke : a.stroke = b.stroke
  c : a.c = b.c
  linear : a.t.sx = b.t.sx ∧ a.t.kx = b.t.kx ∧ a.t.ky = b.t.ky ∧ a.t.sy = b.t.sy
  x : within e a.t.tx b.t.tx
  y : within e a.t.ty b.t.ty

/-- The same shapes one after another, at most `e` pixels away. -/
inductive Alike {G : Type} (e : Rat) : List (Ink G) → List (Ink G) → Prop where
  | nil : Alike e [] []
  | cons {a b l l'} : Close e a b → Alike e l l' → Alike e (a :: l) (b :: l')

/-- The underlined text. -/
def underlined (d : Data) : Data := { d with effects := d.effects ++ [.underline] }

/-- Effects that leave the text sharp, whole and of one colour, without rotation out of the plane. -/
inductive Plain : Effect → Prop where
  | bold : Plain .bold
  | italic : Plain .italic
  | outline c x y : Plain (.outline c x y)
  | shadow c x y : Plain (.shadow c x y)
  | rotation z o : Plain (.rotation 0 0 z o)
  | scale x y : Plain (.scale x y)
  | shear x y : Plain (.shear x y)

/-- An outline. -/
def isOutline : Effect → Bool
  | .outline .. => true
  | _ => false

/-- A shadow. -/
def isShadow : Effect → Bool
  | .shadow .. => true
  | _ => false

/-- The place a transform gives a point. -/
def place (t : Aff) (x y : Rat) : Rat × Rat := (t.sx * x + t.kx * y + t.tx, t.ky * x + t.sy * y + t.ty)

/-- The clip something painted is subject to. -/
def clipOf {G T : Type} : Out G T → Option Clip
  | .fill _ _ _ _ c | .box _ _ _ _ _ c | .edge _ _ _ _ _ _ c | .line _ _ _ _ _ c => c
  | .tile t _ _ => t.clip
  | _ => none

end Verif.Spec.Paint
