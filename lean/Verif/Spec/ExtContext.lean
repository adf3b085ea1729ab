import Verif.Model.ExtContext
/-!
# What should become of what extensions do

Of the model only the actions and histories are used.
-/
namespace Verif.Spec.ExtContext
open Verif.ExtContext

/-- The configuration values an extension sets. -/
def configSet : List Action → List (List Char × List Char)
  | [] => []
  | .setConfig k v :: l => (k, v) :: configSet l
  | _ :: l => configSet l

/-- The configuration values set in a history, by anyone. -/
def allConfig : List Op → List (List Char × List Char)
  | [] => []
  | .config k v :: l => (k, v) :: allConfig l
  | .data _ _ _ :: l => allConfig l
  | .context _ acts :: l => configSet acts ++ allConfig l

/-- Those set by the owner of the manager. -/
def ownersConfig : List Op → List (List Char × List Char)
  | [] => []
  | .config k v :: l => (k, v) :: ownersConfig l
  | _ :: l => ownersConfig l

/-- The data an extension of this name sets. -/
def dataSet (name : List Char) : List Action → List ((List Char × List Char) × List Char)
  | [] => []
  | .setData k v :: l => ((name, k), v) :: dataSet name l
  | _ :: l => dataSet name l

/-- The data set in a history. -/
def allData : List Op → List ((List Char × List Char) × List Char)
  | [] => []
  | .config _ _ :: l => allData l
  | .data n k v :: l => ((n, k), v) :: allData l
  | .context n acts :: l => dataSet n acts ++ allData l

/-- What is read is what was written last for the key, or nothing. -/
def IsLast {K V : Type} (written : List (K × V)) (k : K) (read : Option V) : Prop :=
  (∃ before v later, written = before ++ (k, v) :: later ∧ (∀ p ∈ later, p.1 ≠ k) ∧ read = some v) ∨
  ((∀ p ∈ written, p.1 ≠ k) ∧ read = none)

/-- The events an extension sends in a history. -/
def eventsSent : List Op → List Nat
  | [] => []
  | .context _ acts :: l => acts.filterMap (fun a => match a with | .sendEvent e => some e | _ => none) ++ eventsSent l
  | _ :: l => eventsSent l

/-- The messages extensions show. -/
def messagesShown : List Op → List (List Char × Level)
  | [] => []
  | .context _ acts :: l =>
    acts.filterMap (fun a => match a with | .showMessage t v => some (t, v) | _ => none) ++ messagesShown l
  | _ :: l => messagesShown l

end Verif.Spec.ExtContext
