import Verif.Model.FontLoad
/-!
# Specification: the fonts a script brings
-/
namespace Verif.Spec.FontLoad
open Verif
open Verif.Parser
open Verif.FontLoad (Item)

/-- The key contains `font`, in small letters or capitals. -/
def SaysFont (key : List Char) : Prop :=
  ∃ a f o n t b, key = a ++ [f, o, n, t] ++ b ∧ (f = 'f' ∨ f = 'F') ∧ (o = 'o' ∨ o = 'O') ∧ (n = 'n' ∨ n = 'N') ∧ (t = 't' ∨ t = 'T')

/-- Items belong to things one by one, in order; some things have none. -/
inductive InOrder {α β : Type} (R : α → β → Prop) : List α → List β → Prop
  | nil : InOrder R [] []
  | take {x y l m} : R x y → InOrder R l m → InOrder R (x :: l) (y :: m)
  | skip {x l m} : (∀ y, ¬ R x y) → InOrder R l m → InOrder R (x :: l) m

/-- All embedded fonts of a script. -/
def allFonts (secs : List Section) : List Parser.Media := secs.flatMap (fun | .fonts l => l | _ => [])

/-- All fields of the script information. -/
def allFields (secs : List Section) : List (List Char × List Char) := secs.flatMap (fun | .info f _ => f | _ => [])

/-- Is it a section of fonts? -/
def IsFonts : Section → Bool
  | .fonts _ => true
  | _ => false

/-- Is it a section of script information? -/
def IsInfo : Section → Bool
  | .info _ _ => true
  | _ => false

/-- The first section of the kind is such, or there is none and this holds. -/
def First (kind : Section → Bool) (secs : List Section) (such : Section → Prop) (otherwise : Prop) : Prop :=
  (∃ a s b, secs = a ++ s :: b ∧ (∀ x ∈ a, kind x = false) ∧ such s) ∨ ((∀ x ∈ secs, kind x = false) ∧ otherwise)

end Verif.Spec.FontLoad
