import Verif.Model.Drawing
import Verif.Spec.SrtDoc
/-!
# Specification: drawings
-/
namespace Verif.Spec.Drawing
open Verif
open Verif.Drawing (Cmd Pt Call Curve Box)
open Verif.Spec.SrtDoc (White)

/-- A word: neither blanks nor ASCII letters nor backslashes. -/
def Word (w : Str) : Prop := w ≠ [] ∧ ∀ c ∈ w, ¬ White c ∧ c.isAlpha = false ∧ c ≠ '\\'

/-- How a text falls into tokens: letters by themselves, in lower case; words as far as they go; blanks nothing; and the text ends
at the first backslash. -/
inductive Tokens : Str → List Str → Prop where
  | done : Tokens [] []
  | tag (s : Str) : Tokens ('\\' :: s) []
  | blank {c : Char} {s : Str} {ts : List Str} : White c → Tokens s ts → Tokens (c :: s) ts
  | letter {c : Char} {s : Str} {ts : List Str} : c.isAlpha = true → Tokens s ts → Tokens (c :: s) ([c.toLower] :: ts)
  | word {w s : Str} {ts : List Str} : Word w → (∀ c, s.head? = some c → ¬ Word [c]) → Tokens s ts → Tokens (w ++ s) (w :: ts)

/-- A coordinate as written, with its value. -/
structure Coord where
  text : Str
  value : Rat

/-- The point of two coordinates. -/
abbrev Point := Coord × Coord
def val (p : Point) : Pt := (p.1.value, p.2.value)

/-- The parts of a drawing. -/
inductive Shape where
  | move (first : Point) (more : List Point)
  | noDraw (first : Point) (more : List Point)
  | line (first : Point) (more : List Point)
  | bezier (first : Point × Point × Point) (more : List (Point × Point × Point))
  | spline (a b c : Point) (more : List Point)
  | extend (a b c : Point) (more : List Point)
  | close

/-- All points of a part. -/
def points : Shape → List Point
  | .move p l | .noDraw p l | .line p l => p :: l
  | .bezier p l => (p :: l).flatMap fun c => [c.1, c.2.1, c.2.2]
  | .spline a b c l | .extend a b c l => a :: b :: c :: l
  | .close => []

def letter : Shape → Char
  | .move .. => 'm'
  | .noDraw .. => 'n'
  | .line .. => 'l'
  | .bezier .. => 'b'
  | .spline .. => 's'
  | .extend .. => 'p'
  | .close => 'c'

/-- The tokens of a part: its letter and its coordinates. -/
def tokens (s : Shape) : List Str := [letter s] :: (points s).flatMap fun p => [p.1.text, p.2.text]

/-- The coordinates of the part are words that are read as their values. -/
def Readable (num : Str → Option Rat) (s : Shape) : Prop :=
  ∀ p ∈ points s, ∀ c ∈ [p.1, p.2], Word c.text ∧ num c.text = some c.value

/-- Two points within a hundredth of each other in both directions. -/
def Near (p q : Pt) : Prop := p.1 - q.1 ≤ 1 / 100 ∧ q.1 - p.1 ≤ 1 / 100 ∧ p.2 - q.2 ≤ 1 / 100 ∧ q.2 - p.2 ≤ 1 / 100

instance (p q : Pt) : Decidable (Near p q) := inferInstanceAs (Decidable (_ ∧ _))

/-- What a part commands. -/
def commands : Shape → List Cmd
  | .move p l => .moveTo (val p) :: l.map fun q => .lineTo (val q)
  | .noDraw p l => (p :: l).map fun q => .moveToNoDraw (val q)
  | .line p l => (p :: l).map fun q => .lineTo (val q)
  | .bezier p l => (p :: l).map fun q => .bezierTo (val q.1) (val q.2.1) (val q.2.2)
  | .spline a b c l =>
    let all := (a :: b :: c :: l).map val
    [.spline (if Near (val a) (val ((c :: l).getLast (by simp))) then all else all ++ [val a])]
  | .extend a b c l => [.extendSpline ((a :: b :: c :: l).map val)]
  | .close => [.closePath]

/-- The curve through the points: one piece between each and the next, ending there, and pieces that meet without a corner. -/
def ThroughPoints (l : List Pt) (cs : List Curve) : Prop :=
  cs.map (fun c => c.2.2) = l.tail ∧
  ∀ i c d, cs[i]? = some c → cs[i + 1]? = some d →
    d.1.1 - c.2.2.1 = c.2.2.1 - c.2.1.1 ∧ d.1.2 - c.2.2.2 = c.2.2.2 - c.2.1.2

/-- The horizontal coordinate of a Bézier curve from `p` at `t`. -/
def bezierX (p : Pt) (c : Curve) (t : Rat) : Rat :=
  (1 - t) * (1 - t) * (1 - t) * p.1 + 3 * ((1 - t) * (1 - t)) * t * c.1.1 + 3 * (1 - t) * (t * t) * c.2.1.1 + t * t * t * c.2.2.1

/-- What a command draws: lines, curves, and for splines the given pieces. -/
inductive Draws : Cmd → List Call → Prop where
  | move (p : Pt) : Draws (.moveTo p) [.move p]
  | noDraw (p : Pt) : Draws (.moveToNoDraw p) [.move p]
  | line (p : Pt) : Draws (.lineTo p) [.line p]
  | bezier (a b c : Pt) : Draws (.bezierTo a b c) [.cubic a b c]
  | spline {l : List Pt} {cs : List Curve} : ThroughPoints l cs → Draws (.spline l) (cs.map fun c => .cubic c.1 c.2.1 c.2.2)
  | extend {l : List Pt} {cs : List Curve} : ThroughPoints l cs → Draws (.extendSpline l) (cs.map fun c => .cubic c.1 c.2.1 c.2.2)
  | close : Draws .closePath [.close]

/-- A list of commands draws the calls of each in turn. -/
inductive DrawsAll : List Cmd → List Call → Prop where
  | nil : DrawsAll [] []
  | cons {c : Cmd} {l : List Cmd} {a b : List Call} : Draws c a → DrawsAll l b → DrawsAll (c :: l) (a ++ b)

/-- The point of a box that an alignment (numpad) speaks of. -/
def alignPoint (a : Nat) (b : Box) : Pt :=
  ([b.l, (b.l + b.r) / 2, b.r].getD ((a - 1) % 3) 0, [b.b, (b.t + b.b) / 2, b.t].getD ((a - 1) / 3) 0)

end Verif.Spec.Drawing
