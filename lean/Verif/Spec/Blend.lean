/-!
# Source-over blending of premultiplied pixels

Nothing here refers to the model.
-/
namespace Verif.Spec.Blend

/-- A pixel: red, green, blue, alpha. -/
structure Px where
  r : Nat
  g : Nat
  b : Nat
  a : Nat
deriving DecidableEq

/-- Every channel is a byte. -/
def Px.Bytes (d : Px) : Prop := d.r ≤ 255 ∧ d.g ≤ 255 ∧ d.b ≤ 255 ∧ d.a ≤ 255

/-- A premultiplied pixel: no channel above alpha. -/
def Px.Premultiplied (d : Px) : Prop := d.r ≤ d.a ∧ d.g ≤ d.a ∧ d.b ≤ d.a ∧ d.a ≤ 255

/-- The bytes of pixels. -/
def flat (l : List Px) : List Nat := l.flatMap (fun d => [d.r, d.g, d.b, d.a])

/-- `a * b / 255`, rounded to the nearest whole number. -/
def scale (a b : Nat) : Nat := (2 * (a * b) + 255) / 510

/-- The pixel `p`, covering by `c` of 255, over `d`. -/
def over (p : Px) (c : Nat) (d : Px) : Px :=
  let keep := 255 - scale p.a c
  ⟨scale p.r c + scale d.r keep, scale p.g c + scale d.g keep, scale p.b c + scale d.b keep, scale p.a c + scale d.a keep⟩

/-- The premultiplied pixel of a straight colour. -/
def premultiply (r g b a : Nat) : Px := ⟨scale r a, scale g a, scale b a, a⟩

/-- The pixel at column `px` and row `py` of a frame is pixel `i` of a tile of size `tw`×`th` placed at `(x, y)`. -/
def Covers (tw th : Nat) (x y : Int) (px py i : Nat) : Prop :=
  ∃ tx ty : Nat, (px : Int) = x + tx ∧ (py : Int) = y + ty ∧ tx < tw ∧ ty < th ∧ i = ty * tw + tx

/-- Frame, tile and position are of moderate size. -/
def Moderate (dw dh tw th : Nat) (x y : Int) : Prop :=
  dw ≤ 2 ^ 30 ∧ dh ≤ 2 ^ 30 ∧ tw ≤ 2 ^ 30 ∧ th ≤ 2 ^ 30 ∧ dw * dh < 2 ^ 31 ∧ tw * th < 2 ^ 31 ∧
    -2 ^ 30 < x ∧ x < 2 ^ 30 ∧ -2 ^ 30 < y ∧ y < 2 ^ 30

end Verif.Spec.Blend
