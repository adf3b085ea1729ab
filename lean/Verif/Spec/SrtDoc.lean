import Verif.Spec.Formats
/-!
# Specification: texts that SRT and WebVTT can carry
-/
namespace Verif.Spec.SrtDoc

/-- A piece of an event's text: a character, or switching italics, bold or underline on or off. -/
inductive Tok
  | ch (c : Char) | i1 | i0 | b1 | b0 | u1 | u0
deriving DecidableEq, Repr

/-- How it is written in an event. -/
def Tok.ass : Tok → List Char
  | ch c => [c]
  | i1 => "{\\i1}".toList | i0 => "{\\i0}".toList
  | b1 => "{\\b1}".toList | b0 => "{\\b0}".toList
  | u1 => "{\\u1}".toList | u0 => "{\\u0}".toList

/-- A line as written in an event. -/
def line (l : List Tok) : List Char := l.flatMap Tok.ass

/-- `pat` does not occur in `s`. -/
def Lacks (pat s : List Char) : Prop := ∀ a b, s ≠ a ++ pat ++ b

/-- White space (Unicode). -/
def White (c : Char) : Prop :=
  (9 ≤ c.toNat ∧ c.toNat ≤ 13) ∨ c.toNat = 32 ∨ c.toNat = 0x85 ∨ c.toNat = 0xA0 ∨ c.toNat = 0x1680 ∨
  (0x2000 ≤ c.toNat ∧ c.toNat ≤ 0x200A) ∨ c.toNat = 0x2028 ∨ c.toNat = 0x2029 ∨ c.toNat = 0x202F ∨
  c.toNat = 0x205F ∨ c.toNat = 0x3000

/-- A line the formats can carry: not empty, no white space at its ends, no line feed, no brace, no `<`, no
line break code `\N` and no arrow. -/
structure Carried (l : List Tok) : Prop where
  nonempty : l ≠ []
  first : ∀ c, l.head? = some (.ch c) → ¬ White c
  last : ∀ c, l.getLast? = some (.ch c) → ¬ White c
  chars : ∀ c, Tok.ch c ∈ l → c ≠ '\n' ∧ c ≠ '{' ∧ c ≠ '}' ∧ c ≠ '<'
  noBreak : Lacks "\\N".toList (line l)
  noArrow : Lacks "-->".toList (line l)

/-- The event's text: the lines, separated by `\N`. -/
def text : List (List Tok) → List Char
  | [] => []
  | [l] => line l
  | l :: m :: ls => line l ++ "\\N".toList ++ text (m :: ls)

end Verif.Spec.SrtDoc

namespace Verif.Spec.SrtDoc

/-- A time as events carry it, `H:MM:SS.cc`. -/
def Canonical (x : List Char) : Prop :=
  ∃ h m s cs, h < 2 ^ 32 ∧ m < 60 ∧ s < 60 ∧ cs < 100 ∧ x = Fmt.assStamp h m s cs

/-- Only characters, nothing is switched. -/
def Unformatted (L : List (List Tok)) : Prop := ∀ l ∈ L, ∀ t ∈ l, ∃ c, t = .ch c

/-- A line that WebVTT would not take for a header or a note. -/
def NotHeader (l : List Tok) : Prop :=
  (∀ t, line l ≠ "WEBVTT".toList ++ t) ∧ (∀ t, line l ≠ "NOTE".toList ++ t)

end Verif.Spec.SrtDoc
