import Verif.Model.Animation
import Verif.Spec.Transform
/-!
# Animation tracks

Of the model only the data types are used: `Value`, `Result`, `Track`, `Timing`.
-/
namespace Verif.Spec.Animation
open Verif.Animation (Value Result Track Timing)
open Verif.Spec.Transform (way Whole Between)

/-- Where an animated value begins. -/
def first : Value → Result
  | .integer a _ => .integer a
  | .float a _ => .float a
  | .color a _ => .color a
  | .position a _ => .position a
  | .scale a _ => .scale a

/-- Where it ends. -/
def last : Value → Result
  | .integer _ b => .integer b
  | .float _ b => .float b
  | .color _ b => .color b
  | .position _ b => .position b
  | .scale _ b => .scale b

/-- The ends are representable, and whole numbers are less than 2³¹ apart. -/
def Fits : Value → Prop
  | .integer a b => -2147483648 ≤ a ∧ a ≤ 2147483647 ∧ -2147483648 ≤ b ∧ b ≤ 2147483647 ∧
      -2147483648 ≤ b - a ∧ b - a ≤ 2147483647
  | .color a b => (a.r ≤ 255 ∧ a.g ≤ 255 ∧ a.b ≤ 255 ∧ a.a ≤ 255) ∧ b.r ≤ 255 ∧ b.g ≤ 255 ∧ b.b ≤ 255 ∧ b.a ≤ 255
  | _ => True

/-- `n` is at most one short of the part `p` of the way from `a` to `b`, and not beyond it. -/
def Reached (a b : Int) (p : Rat) (n : Int) : Prop :=
  (a ≤ b → (n : Rat) ≤ way a b p ∧ way a b p < (n : Rat) + 1) ∧ (b ≤ a → (n : Rat) - 1 < way a b p ∧ way a b p ≤ (n : Rat))

/-- `r` is the part `p` of the way. -/
def At (p : Rat) : Value → Result → Prop
  | .integer a b, .integer n => Reached a b p n
  | .float a b, .float x => x = way a b p
  | .color a b, .color c =>
    Whole (way a.r b.r p) c.r ∧ Whole (way a.g b.g p) c.g ∧ Whole (way a.b b.b p) c.b ∧ Whole (way a.a b.a p) c.a
  | .position a b, .position q => q.1 = way a.1 b.1 p ∧ q.2 = way a.2 b.2 p
  | .scale a b, .scale q => q.1 = way a.1 b.1 p ∧ q.2 = way a.2 b.2 p
  | _, _ => False

/-- `r` is between the ends. -/
def Inside : Value → Result → Prop
  | .integer a b, .integer n => Between a b n
  | .float a b, .float x => Between a b x
  | .color a b, .color c => Between a.r b.r c.r ∧ Between a.g b.g c.g ∧ Between a.b b.b c.b ∧ Between a.a b.a c.a
  | .position a b, .position q => Between a.1 b.1 q.1 ∧ Between a.2 b.2 q.2
  | .scale a b, .scale q => Between a.1 b.1 q.1 ∧ Between a.2 b.2 q.2
  | _, _ => False

/-- The time the animation is under way. -/
def Running (t : Timing) (now : Nat) : Prop := t.start ≤ now ∧ now ≤ t.stop

/-- The last track for a property. -/
def Governs (tracks : List Track) (name : List Char) (t : Track) : Prop :=
  ∃ pre post, tracks = pre ++ t :: post ∧ t.property = name ∧ ∀ u ∈ post, u.property ≠ name

/-- The documented names with the property they animate. -/
def named : List (List Char × List Char) :=
  [("\\fscx".toList, "fscx".toList), ("\\fscy".toList, "fscy".toList), ("\\fs".toList, "fs".toList), ("\\frz".toList, "frz".toList),
   ("\\fr".toList, "frz".toList), ("\\c".toList, "c".toList), ("\\1c".toList, "c".toList), ("\\alpha".toList, "alpha".toList)]

/-- A colour as it is written: blue, green, red, with or without the transparency in front. -/
def WritesColor (s : List Char) (c : Verif.Color.Rgba) : Prop :=
  (∃ pb pg pr, HexByte pb c.b ∧ HexByte pg c.g ∧ HexByte pr c.r ∧ c.a = 255 ∧ s = "&H".toList ++ (pb ++ pg ++ pr) ++ ['&']) ∨
  ∃ pa pb pg pr n, HexByte pa n ∧ HexByte pb c.b ∧ HexByte pg c.g ∧ HexByte pr c.r ∧ c.a = 255 - n ∧
    s = "&H".toList ++ (pa ++ pb ++ pg ++ pr) ++ ['&']

/-- What two texts mean for a property. -/
def Means (f32 : List Char → Option Rat) (property a b : List Char) (v : Value) : Prop :=
  (property ∈ ["fscx".toList, "fscy".toList, "fs".toList, "frz".toList] ∧ ∃ x y, f32 a = some x ∧ f32 b = some y ∧ v = .float x y) ∨
  (property = "c".toList ∧ ∃ c d, WritesColor a c ∧ WritesColor b d ∧ v = .color c d) ∨
  (property = "alpha".toList ∧ ∃ h k m n, HexByte h m ∧ HexByte k n ∧ a = "&H".toList ++ h ++ ['&'] ∧ b = "&H".toList ++ k ++ ['&'] ∧
    v = .integer ((255 - m : Nat) : Int) ((255 - n : Nat) : Int))

/-- A value as it may stand between the parentheses. -/
def Clean (s : List Char) : Prop := '(' ∉ s ∧ ')' ∉ s ∧ ',' ∉ s

/-- One animated modifier as the documentation writes it: name, opening parenthesis, two values, closing parenthesis. -/
structure Item where
  name : List Char
  property : List Char
  a : List Char
  b : List Char
  value : Value

def Item.Ok (f32 : List Char → Option Rat) (i : Item) : Prop :=
  (i.name, i.property) ∈ named ∧ Clean i.a ∧ Clean i.b ∧ Means f32 i.property i.a i.b i.value

def Item.text (i : Item) : List Char := i.name ++ '(' :: (i.a ++ ',' :: (i.b ++ [')']))

end Verif.Spec.Animation
