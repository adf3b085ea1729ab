import Verif.Model.Override
/-!
# `str::parse::<f32>` of the standard library

The library is taken to do what its documentation says: the grammar of `f32::from_str`, and the number nearest to the decimal
value.  Here the decimal value is kept exactly; whether it is rounded to zero is decided in the comparisons.
-/
namespace Verif.Float
open Verif
open Verif.Override (isDig)

/-- What a text is read as, before rounding. -/
inductive F where
  | nan
  | inf (neg : Bool)
  | fin (neg : Bool) (v : Rat)
deriving DecidableEq, Repr

/-- At least one digit, and nothing else. -/
def digits (ds : Str) : Option Nat := if ds = [] then none else digitsVal 10 0 ds

/-- The integer of an exponent. -/
def power : Str → Option (Nat × Nat)
  | '-' :: ds => (digits ds).map (fun n => (0, n))
  | '+' :: ds => (digits ds).map (fun n => (n, 0))
  | ds => (digits ds).map (fun n => (n, 0))

/-- The exponent: by how many powers of ten up and down. -/
def parseExp : Str → Option (Nat × Nat)
  | [] => some (0, 0)
  | c :: t =>
    if c = 'e' ∨ c = 'E' then power t else none

/-- The value of the digits before and after the point with the exponent. -/
def withExp (ip fp r : Str) : Option Rat :=
  if ip ++ fp = [] then none
  else match digitsVal 10 0 (ip ++ fp), parseExp r with
    | some n, some (up, down) => some ((n : Rat) * 10 ^ up / 10 ^ (fp.length + down))
    | _, _ => none

/-- The point and the digits after it. -/
def withPoint (ip : Str) : Str → Option Rat
  | '.' :: t => withExp ip (t.takeWhile isDig) (t.dropWhile isDig)
  | r => withExp ip [] r

/-- A number without a sign. -/
def parseNumber (s : Str) : Option Rat := withPoint (s.takeWhile isDig) (s.dropWhile isDig)

/-- A number, infinity or NaN without a sign. -/
def unsignedF (neg : Bool) (t : Str) : Option F :=
  match parseNumber t with
  | some v => some (.fin neg v)
  | none =>
    if t.map Char.toLower = "inf".toList ∨ t.map Char.toLower = "infinity".toList then some (.inf neg)
    else if t.map Char.toLower = "nan".toList then some .nan
    else none

/-- `str::parse::<f32>`. -/
def parseF32 : Str → Option F
  | '-' :: t => unsignedF true t
  | '+' :: t => unsignedF false t
  | t => unsignedF false t

/-- `> 0.0`: numbers up to half of the least `f32` become 0. -/
def positive : F → Bool
  | .fin neg v => !neg && decide (1 / 2 ^ 150 < v)
  | .inf neg => !neg
  | .nan => false

/-- `>= 0.0`. -/
def nonNegative : F → Bool
  | .fin neg v => !neg || decide (v ≤ 1 / 2 ^ 150)
  | .inf neg => !neg
  | .nan => false

end Verif.Float
