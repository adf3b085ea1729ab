import Verif.Model.Tokenizer
import Verif.Spec.Script
import Verif.Spec.EventCmd
/-! # Specification: how tokens lie in their source -/
namespace Verif.Spec.Tokenizer
open Verif
open Verif.Tokenizer (Ty Tok)
open Verif.Spec.Script (size)
open Verif.Spec.EventCmd (White)

/-- White space within a line. -/
def Gap (g : List Char) : Prop := ∀ c ∈ g, White c ∧ c ≠ '\n' ∧ c ≠ '\r'

/-- The text of a source without a byte order mark, and where it begins. -/
def body : List Char → List Char
  | [] => []
  | c :: s => if c.toNat = 0xFEFF then s else c :: s

/-- How many bytes the byte order mark takes. -/
def skipped : List Char → Nat
  | [] => 0
  | c :: _ => if c.toNat = 0xFEFF then 3 else 0

/-- Whether text goes on being a field value (where white space counts) after a token: a colon begins it; a line end, a section
header or an override block ends it. -/
def valueAfter (v : Bool) : Ty → Bool
  | .colon => true
  | .newline | .sectionHeader | .sectionClose | .overrideBlock | .overrideClose => false
  | _ => v

/-- From byte `n` on, the text `s` consists of the tokens: none is empty, none overlaps another, and what lies between two is white
space, or nothing within a field value. -/
inductive Laid : Bool → Nat → List Char → List Tok → Prop
  | nil {v n g} (hg : Gap g) (hv : v = true → g = []) : Laid v n g []
  | cons {v n g t s ts} (hg : Gap g) (hv : v = true → g = []) (hne : t.span ≠ []) (hs : t.start = n + size g)
      (ht : Laid (valueAfter v t.ty) (n + size g + size t.span) s ts) : Laid v n (g ++ t.span ++ s) (t :: ts)

/-- Text in which the braces match. -/
inductive Balanced : List Char → Prop
  | nil : Balanced []
  | char {c s} (h : c ≠ '{') (h' : c ≠ '}') (hs : Balanced s) : Balanced (c :: s)
  | block {x s} (hx : Balanced x) (hs : Balanced s) : Balanced ('{' :: x ++ '}' :: s)

/-- The text goes on with the character, or ends. -/
def EndsAt (c : Char) (s : List Char) : Prop := s = [] ∨ s.head? = some c

def Digit (c : Char) : Prop := 48 ≤ c.toNat ∧ c.toNat ≤ 57
def Hex (c : Char) : Prop := Digit c ∨ (65 ≤ c.toNat ∧ c.toNat ≤ 70) ∨ (97 ≤ c.toNat ∧ c.toNat ≤ 102)

/-- What a token of each type looks like, with the text that follows it. -/
def Shape (t : Tok) (s : List Char) : Prop := match t.ty with
  | .comma => t.span = [',']
  | .colon => t.span = [':']
  | .sectionClose => t.span = [']']
  | .overrideClose => t.span = ['}']
  | .newline => t.span = ['\n'] ∨ t.span = ['\r', '\n'] ∨ (t.span = ['\r'] ∧ s.head? ≠ some '\n')
  | .sectionHeader => ∃ x, t.span = '[' :: x ∧ ']' ∉ x ∧ EndsAt ']' s
  | .overrideBlock => ∃ x, t.span = '{' :: x ∧ (∀ a b, x = a ++ '}' :: b → ¬ Balanced a) ∧ (s = [] ∨ (s.head? = some '}' ∧ Balanced x))
  | .comment => (t.span.head? = some ';' ∨ ∃ x, t.span = '!' :: ':' :: x) ∧ '\n' ∉ t.span ∧ '\r' ∉ t.span ∧ (EndsAt '\n' s ∨ EndsAt '\r' s)
  | .sectionName => False
  | .number => (∀ c ∈ t.span, Digit c ∨ c = '.' ∨ c = '-' ∨ c = ':')
  | .whitespace => ∀ c ∈ t.span, White c ∧ c ≠ '\n' ∧ c ≠ '\r'
  | .hexValue => ∃ h e, t.span = '&' :: 'H' :: h ++ e ∧ (e = [] ∨ e = ['&']) ∧ (∀ c ∈ h, Hex c) ∧
      (h.length = 2 ∨ h.length = 4 ∨ h.length = 6 ∨ h.length = 8)
  | .text => ∀ c ∈ t.span, c ≠ ',' ∧ c ≠ '{' ∧ c ≠ '[' ∧ c ≠ '\n' ∧ c ≠ '\r'

/-- The line ends in a text, of which a carriage return with a line feed is one; `cr`: a carriage return comes before. -/
def breaks (cr : Bool) : List Char → Nat
  | [] => 0
  | c :: s => (if c = '\r' ∨ (c = '\n' ∧ cr = false) then 1 else 0) + breaks (c = '\r') s

/-- The characters behind the last line end. -/
def tailLen (n : Nat) : List Char → Nat
  | [] => n
  | c :: s => if c = '\r' ∨ c = '\n' then tailLen 0 s else tailLen (n + 1) s

/-- Every carriage return is followed by a line feed. -/
def CrLf (s : List Char) : Prop := ∀ a b, s = a ++ '\r' :: b → b.head? = some '\n'

end Verif.Spec.Tokenizer
