import Verif.Spec.Script
import Verif.Model.SectionExt
/-!
# What is said of sections the library does not know
-/
namespace Verif.Spec.SectionExt
open Verif.Spec.Script
open Verif.Spec.EventCmd (White)
open Verif.Spec.InfoCmd (Stripped)
open Verif.SectionExt (Result Registry Hint Note)

/-- The issues that do not come from a processor and are no suggestion. -/
def plain (ns : List Note) : List Verif.Parser.Issue :=
  ns.filterMap (fun n => match n with | .base i => some i | _ => none)

/-- What processors had to say: the section, and the message if it failed. -/
def fromProcessors (ns : List Note) : List (List Char × Option (List Char)) :=
  ns.filterMap (fun n => match n with
    | .processed name _ => some (name, none)
    | .failed name msg _ => some (name, some msg)
    | _ => none)

/-- The suggestions. -/
def hints (ns : List Note) : List Hint :=
  ns.filterMap (fun n => match n with | .hint h _ => some h | _ => none)

/-- The lines of a body as a processor gets them: those that are not empty, in order, but for blank lines at the end. -/
def Given (body lines : List Line) : Prop :=
  ∃ b w, body = b ++ w ∧ (∀ l ∈ w, ∀ c ∈ l, White c) ∧ lines = b.filter (fun l => !l.isEmpty)

/-- What is said of a result. -/
def about (name : List Char) : Option Result → List (List Char × Option (List Char))
  | some .processed => [(name, none)]
  | some (.failed msg) => [(name, some msg)]
  | _ => []

/-- Each unknown section, and no other, is given to the processor of its name. -/
inductive Asked (reg : Registry) : List Seg → List (List Char × Option (List Char)) → Prop
  | nil : Asked reg [] []
  | known {g gs n out} : Stripped g.raw n → Known n → Asked reg gs out → Asked reg (g :: gs) out
  | unknown {g gs n lines out} : Stripped g.raw n → ¬ Known n → Given g.body lines → Asked reg gs out →
      Asked reg (g :: gs) (about g.raw ((reg g.raw).map (fun f => f g.raw lines)) ++ out)

/-- After blanks, the line begins with the word. -/
def Begins (word : String) (l : Line) : Prop := ∃ w r, l = w ++ word.toList ++ r ∧ ∀ c ∈ w, White c

/-- The suggestion one line gives, for lines that are no format line. -/
def lineHint (l : Line) (h : Hint) : Prop :=
  match h with
  | .styles => Begins "Style:" l
  | .events => Begins "Dialogue:" l ∨ Begins "Comment:" l
  | .info => Begins "Title:" l ∨ Begins "ScriptType:" l

/-- The suggestion for a body without format lines: that of the first line that gives one. -/
inductive BodyHint : List Line → List Hint → Prop
  | nil : BodyHint [] []
  | hit {l ls h} : lineHint l h → BodyHint (l :: ls) [h]
  | miss {l ls hs} : (∀ h, ¬ lineHint l h) → BodyHint ls hs → BodyHint (l :: ls) hs

/-- The suggestions for the unknown sections. -/
inductive Hinted : List Seg → List Hint → Prop
  | nil : Hinted [] []
  | known {g gs n out} : Stripped g.raw n → Known n → Hinted gs out → Hinted (g :: gs) out
  | unknown {g gs n hs out} : Stripped g.raw n → ¬ Known n → BodyHint g.body hs → Hinted gs out →
      Hinted (g :: gs) (hs ++ out)

end Verif.Spec.SectionExt
