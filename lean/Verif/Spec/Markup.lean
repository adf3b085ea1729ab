import Verif.Spec.FormatDoc
/-!
# Specification: markup of WebVTT and SRT and the tags it stands for
-/
namespace Verif.Spec.Markup
open Verif.Spec.FormatDoc (Tok Sw)
open Verif.Spec.SrtDoc (White)

/-- A piece of a WebVTT text: a character or switch, a span with a class, a span with a voice, a ruby annotation, a time stamp. -/
inductive Cue
  | plain (t : Tok)
  | cls (name : List Char) (inner : List Tok)
  | voice (blanks name : List Char) (inner : List Tok)
  | ruby (base over : List Tok)
  | stamp (time : List Char)

/-- How it is written in the file. -/
def Cue.vtt : Cue → List Char
  | plain t => t.html
  | cls n x => "<c.".toList ++ n ++ ">".toList ++ FormatDoc.html x ++ "</c>".toList
  | voice b n x => "<v".toList ++ b ++ n ++ ">".toList ++ FormatDoc.html x ++ "</v>".toList
  | ruby x y => "<ruby>".toList ++ FormatDoc.html x ++ "<rt>".toList ++ FormatDoc.html y ++ "</rt></ruby>".toList
  | stamp t => "<".toList ++ t ++ ">".toList

/-- What becomes of it: the class a colour, the voice a font, the annotation in parentheses after its base, the stamp nothing. -/
def Cue.event : Cue → List Char
  | plain t => t.ass
  | cls n x => "{\\c&H".toList ++ n ++ "&}".toList ++ FormatDoc.ass x ++ "{\\c}".toList
  | voice _ n x => "{\\fn".toList ++ n ++ "}".toList ++ FormatDoc.ass x ++ "{\\fn}".toList
  | ruby x y => FormatDoc.ass x ++ "(".toList ++ FormatDoc.ass y ++ ")".toList
  | stamp _ => []

/-- A text within or outside of spans: no `<` but in switches, nothing struck out. -/
def Inner (x : List Tok) : Prop := ∀ t ∈ x, t ≠ .ch '<' ∧ t ≠ .on .s ∧ t ≠ .off .s

/-- A name: not empty, without angle brackets. -/
def Name (n : List Char) : Prop := n ≠ [] ∧ '<' ∉ n ∧ '>' ∉ n

/-- Well formed pieces. -/
def Cue.Ok : Cue → Prop
  | plain t => Inner [t]
  | cls n x => Name n ∧ Inner x
  | voice b n x => b ≠ [] ∧ (∀ c ∈ b, White c) ∧ Name n ∧ (∀ c, n.head? = some c → ¬ White c) ∧ Inner x
  | ruby x y => Inner x ∧ Inner y
  | stamp t => t ≠ [] ∧ ∀ c ∈ t, c ∈ "0123456789:.,".toList

/-- A piece of an SRT text: a character or switch, the start of a colour (with or without quotes and sign), of a font, the end. -/
inductive Part
  | plain (t : Tok)
  | colour (open' hash close : Bool) (digits : List Char)
  | face (name : List Char)
  | close

/-- How it is written in the file. -/
def Part.srt : Part → List Char
  | plain t => t.html
  | colour o h c d => "<font color=".toList ++ (if o then ['"'] else []) ++ (if h then ['#'] else []) ++ d ++
      (if c then ['"'] else []) ++ ">".toList
  | face n => "<font face=\"".toList ++ n ++ "\">".toList
  | close => "</font>".toList

/-- What becomes of it; every end resets the colour. -/
def Part.event : Part → List Char
  | plain t => t.ass
  | colour _ _ _ d => "{\\c&H".toList ++ d ++ "&}".toList
  | face n => "{\\fn".toList ++ n ++ "}".toList
  | close => "{\\c}".toList

/-- Well formed parts. -/
def Part.Ok : Part → Prop
  | plain t => t ≠ .ch '<'
  | colour _ _ _ d => d.length = 6 ∧ ∀ c ∈ d, c ∈ "0123456789abcdefABCDEF".toList
  | face n => n ≠ [] ∧ '<' ∉ n ∧ '"' ∉ n
  | close => True

end Verif.Spec.Markup
