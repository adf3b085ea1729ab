import Verif.Model.Sync
/-!
# Specification: one operation after another
-/
namespace Verif.Spec.Sync
open Verif.Sync

variable {D R : Type}

/-- Doing something with the document without interruption. -/
def _root_.Verif.Sync.Prog.run : Prog D R → D → D × Res R
  | .ret r, d => (d, .ok r)
  | .panic, d => (d, .panic)
  | .step upd next, d => (next d).run (upd d)

/-- Looking at an unchanging document. -/
def _root_.Verif.Sync.Look.run : Look D R → D → Res R
  | .ret r, _ => .ok r
  | .panic, _ => .panic
  | .look next, d => (next d).run d

/-- The document and whether an operation has panicked while changing it. -/
structure Sole (D : Type) where
  doc : D
  broken : Bool

/-- One operation on its own: on a broken document everything is refused; a panic with write access breaks it. -/
inductive One : Sole D → Op D R → Res R → Sole D → Prop
  | refused (d : D) (op : Op D R) : One ⟨d, true⟩ op .err ⟨d, true⟩
  | exec (d d' : D) (p : Prog D R) (r : R) (h : p.run d = (d', .ok r)) : One ⟨d, false⟩ (.exec p) (.ok r) ⟨d', false⟩
  | execPanic (d d' : D) (p : Prog D R) (h : p.run d = (d', .panic)) : One ⟨d, false⟩ (.exec p) .panic ⟨d', true⟩
  | write (d d' : D) (p : Prog D R) (r : R) (h : p.run d = (d', .ok r)) : One ⟨d, false⟩ (.write p) (.ok r) ⟨d', false⟩
  | writePanic (d d' : D) (p : Prog D R) (h : p.run d = (d', .panic)) : One ⟨d, false⟩ (.write p) .panic ⟨d', true⟩
  | read (d : D) (p : Look D R) (r : Res R) (h : p.run d = r) : One ⟨d, false⟩ (.read p) r ⟨d, false⟩

/-- Operations one after another, with their results. -/
inductive Serial : Sole D → List (Nat × Op D R × Res R) → Sole D → Prop
  | nil (s : Sole D) : Serial s [] s
  | snoc (s s' s'' : Sole D) (l : List (Nat × Op D R × Res R)) (t : Nat) (op : Op D R) (r : Res R) (h : Serial s l s')
      (ho : One s' op r s'') : Serial s (l ++ [(t, op, r)]) s''

end Verif.Spec.Sync
