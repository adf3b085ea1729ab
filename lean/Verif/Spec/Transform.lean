import Verif.Model.Transform
import Verif.Spec.Color
import Verif.Spec.EventCmd
/-!
# Animated transforms

Of the model only the data types are used: `Tag`, `Animation`, `State`, `Defaults`, `Rgba`.
-/
namespace Verif.Spec.Transform
open Verif.Transform (Tag Animation State Defaults)
open Verif.Color (Rgba)

/-- What a transform can change. -/
inductive Field where
  | fontSize | scaleX | scaleY | spacing | rotationZ | rotationX | rotationY | primary | secondary | outline | shadow | alpha
  | border | shadowDepth | blur
deriving DecidableEq

inductive Val where
  | number (v : Rat)
  | byte (n : Nat)
  | color (c : Rgba)
deriving DecidableEq

/-- What a tag changes. -/
def fieldOf : Tag → Field
  | .fontSize _ => .fontSize | .scaleX _ => .scaleX | .scaleY _ => .scaleY | .spacing _ => .spacing
  | .rotationZ _ => .rotationZ | .rotationX _ => .rotationX | .rotationY _ => .rotationY
  | .primary _ => .primary | .secondary _ => .secondary | .outline _ => .outline | .shadow _ => .shadow
  | .alpha _ => .alpha | .border _ => .border | .shadowDepth _ => .shadowDepth | .blur _ => .blur

/-- Where a tag leads to. -/
def target : Tag → Val
  | .fontSize v | .scaleX v | .scaleY v | .spacing v | .rotationZ v | .rotationX v | .rotationY v
  | .border v | .shadowDepth v | .blur v => .number v
  | .primary c | .secondary c | .outline c | .shadow c => .color c
  | .alpha n => .byte n

/-- The value of a field, when an override has set it. -/
def read (s : State) : Field → Option Val
  | .fontSize => s.size.map .number
  | .scaleX => s.scale_x.map .number
  | .scaleY => s.scale_y.map .number
  | .spacing => s.spacing.map .number
  | .rotationZ => s.rotation_z.map .number
  | .rotationX => s.rotation_x.map .number
  | .rotationY => s.rotation_y.map .number
  | .primary => s.primary.map .color
  | .secondary => s.secondary.map .color
  | .outline => s.outline.map .color
  | .shadow => s.shadow.map .color
  | .alpha => s.alpha.map .byte
  | .border => s.border.map .number
  | .shadowDepth => s.shadow_depth.map .number
  | .blur => s.blur.map .number

/-- `n` is the whole part of `x`. -/
def Whole (x : Rat) (n : Nat) : Prop := (n : Rat) ≤ x ∧ x < (n : Rat) + 1

/-- The number that is the part `p` of the way from `a` to `b`. -/
def way (a b p : Rat) : Rat := a + (b - a) * p

/-- `v` is the part `p` of the way from the first value to the second. -/
def Part (p : Rat) : Val → Val → Val → Prop
  | .number a, .number b, .number v => v = way a b p
  | .byte a, .byte b, .byte v => Whole (way a b p) v
  | .color a, .color b, .color c =>
    Whole (way a.r b.r p) c.r ∧ Whole (way a.g b.g p) c.g ∧ Whole (way a.b b.b p) c.b ∧ Whole (way a.a b.a p) c.a
  | _, _, _ => False

/-- `v` is between `a` and `b`. -/
def Between {α : Type} [LE α] (a b v : α) : Prop := (a ≤ v ∧ v ≤ b) ∨ (b ≤ v ∧ v ≤ a)

/-- Values with all their parts in between. -/
def ValBetween : Val → Val → Val → Prop
  | .number a, .number b, .number v => Between a b v
  | .byte a, .byte b, .byte v => Between a b v
  | .color a, .color b, .color c => Between a.r b.r c.r ∧ Between a.g b.g c.g ∧ Between a.b b.b c.b ∧ Between a.a b.a c.a
  | _, _, _ => False

/-- Bytes are below 256. -/
def Val.Ok : Val → Prop
  | .number _ => True
  | .byte n => n ≤ 255
  | .color c => c.r ≤ 255 ∧ c.g ≤ 255 ∧ c.b ≤ 255 ∧ c.a ≤ 255

/-- Of what sort the values of a field are. -/
def Suits : Field → Val → Prop
  | .primary, .color _ | .secondary, .color _ | .outline, .color _ | .shadow, .color _ => True
  | .alpha, .byte _ => True
  | .fontSize, .number _ | .scaleX, .number _ | .scaleY, .number _ | .spacing, .number _ | .rotationZ, .number _
  | .rotationX, .number _ | .rotationY, .number _ | .border, .number _ | .shadowDepth, .number _ | .blur, .number _ => True
  | _, _ => False

/-- The value in force: that of the override, or else of the style. -/
def inForce (style : Field → Val) (s : State) (f : Field) : Val := (read s f).getD (style f)

/-- What the function knows about the style. -/
def Knows (d : Defaults) (style : Field → Val) : Prop :=
  style .fontSize = .number d.size ∧ style .primary = .color d.primary ∧ style .secondary = .color d.secondary ∧
    style .outline = .color d.outline ∧ style .shadow = .color d.shadow

/-- The powers of a number between 0 and 1 are between 0 and 1 and grow with it. -/
structure PowerLaw (powf : Rat → Rat → Rat) : Prop where
  range : ∀ t a, 0 ≤ t → t ≤ 1 → 0 ≤ a → 0 ≤ powf t a ∧ powf t a ≤ 1
  mono : ∀ s t a, 0 ≤ s → s ≤ t → t ≤ 1 → 0 ≤ a → powf s a ≤ powf t a

/-- The names of the tags. -/
def names : Field → List (List Char)
  | .fontSize => ["fs".toList]
  | .scaleX => ["fscx".toList]
  | .scaleY => ["fscy".toList]
  | .spacing => ["fsp".toList]
  | .rotationZ => ["frz".toList, "fr".toList]
  | .rotationX => ["frx".toList]
  | .rotationY => ["fry".toList]
  | .primary => ["c".toList, "1c".toList]
  | .secondary => ["2c".toList]
  | .outline => ["3c".toList]
  | .shadow => ["4c".toList]
  | .alpha => ["alpha".toList]
  | .border => ["bord".toList]
  | .shadowDepth => ["shad".toList]
  | .blur => ["blur".toList, "be".toList]

/-- A text for a value. -/
def Denotes (f32 : List Char → Option Rat) (s : List Char) : Val → Prop
  | .number v => f32 s = some v
  | .color c => (∃ pb pg pr, HexByte pb c.b ∧ HexByte pg c.g ∧ HexByte pr c.r ∧ c.a = 0 ∧ Decorated (pb ++ pg ++ pr) s) ∨
      ∃ pa pb pg pr, HexByte pa c.a ∧ HexByte pb c.b ∧ HexByte pg c.g ∧ HexByte pr c.r ∧ Decorated (pa ++ pb ++ pg ++ pr) s
  | .byte n => ∃ h m, HexByte h m ∧ n = 255 - m ∧ (s = "&H".toList ++ h ∨ s = "&h".toList ++ h)

/-- One tag with its argument.  The argument does not look like a continuation of the name or like a further tag. -/
structure Item where
  tag : Tag
  name : List Char
  arg : List Char

def Item.Ok (f32 : List Char → Option Rat) (i : Item) : Prop :=
  i.name ∈ names (fieldOf i.tag) ∧ Denotes f32 i.arg (target i.tag) ∧ '\\' ∉ i.arg ∧
    ∀ c, i.arg.head? = some c → ¬ (('a' ≤ c ∧ c ≤ 'z') ∨ ('A' ≤ c ∧ c ≤ 'Z'))

/-- The text of tags. -/
def itemsText (l : List Item) : List Char := l.flatMap (fun i => '\\' :: i.name ++ i.arg)

/-- A number that can stand before the tags. -/
def Bare (s : List Char) : Prop := s ≠ [] ∧ ',' ∉ s ∧ '\\' ∉ s ∧ Verif.Spec.EventCmd.Trimmed s

/-- What stands before the tags: nothing, the acceleration, begin and end, or all three. -/
inductive Head (f32 : List Char → Option Rat) : List Char → Nat → Nat → Rat → Prop where
  | nothing : Head f32 [] 0 0 1
  | accel {a : List Char} {v : Rat} : Bare a → f32 a = some v → Head f32 (a ++ [',']) 0 0 v
  | times {t1 t2 : Nat} : t1 < 2 ^ 32 → t2 < 2 ^ 32 →
      Head f32 (Nat.toDigits 10 t1 ++ [','] ++ Nat.toDigits 10 t2 ++ [',']) t1 t2 1
  | all {t1 t2 : Nat} {a : List Char} {v : Rat} : t1 < 2 ^ 32 → t2 < 2 ^ 32 → Bare a → f32 a = some v →
      Head f32 (Nat.toDigits 10 t1 ++ [','] ++ Nat.toDigits 10 t2 ++ [','] ++ a ++ [',']) t1 t2 v

end Verif.Spec.Transform
