import Verif.Model.Map
/-!
# Effect plugins of the renderer

Models crates/ass-renderer/src/plugin/mod.rs and plugin/effects/mod.rs.
-/
namespace Verif.Plugin
open Verif

/-- A text. -/
abbrev Str := List Char

/-- `EffectValue`, plugin/mod.rs lines 59-71.  Simplification: `f32` is `Rat`. -/
inductive Value where
  | float (f : Rat)
  | integer (i : Int)
  | color (r g b a : Nat)
  | boolean (b : Bool)
  | string (s : Str)
deriving DecidableEq

/-- `EffectParams`, lines 51-56. -/
structure Params where
  strength : Rat
  custom : Map Str Value

/-- `EffectParams::new`, lines 75-80. -/
def Params.new (strength : Rat) : Params := ⟨strength, []⟩

/-- `EffectParams::set`, lines 83-85. -/
def Params.set (p : Params) (key : Str) (v : Value) : Params := { p with custom := p.custom.insert key v }

/-- `EffectParams::get`, lines 88-90. -/
def Params.get (p : Params) (key : Str) : Option Value := p.custom.get key

/-- `EffectParams::get_float`, lines 93-101. -/
def Params.getFloat (p : Params) (key : Str) : Option Rat :=
  (p.custom.get key).bind (fun v => match v with
    | .float f => some f
    | _ => none)

/-- `EffectParams::get_int`, lines 104-112. -/
def Params.getInt (p : Params) (key : Str) : Option Int :=
  (p.custom.get key).bind (fun v => match v with
    | .integer i => some i
    | _ => none)

/-- `EffectParams::get_color`, lines 115-123. -/
def Params.getColor (p : Params) (key : Str) : Option (Nat × Nat × Nat × Nat) :=
  (p.custom.get key).bind (fun v => match v with
    | .color r g b a => some (r, g, b, a)
    | _ => none)

/-- `EffectPlugin`, lines 22-47: a name, a version, what it does to the pixels of a picture (`none` is an error) and its
shader. -/
structure Effect where
  name : Str
  version : Str
  apply : List Nat → Nat → Nat → Params → Option (List Nat)
  shader : Option Str

/-- `EffectPlugin::supports_gpu`, lines 44-46. -/
def Effect.gpu (e : Effect) : Bool := e.shader.isSome

/-- `PluginRegistry`, lines 127-129. -/
abbrev Registry := Map Str Effect

/-- `PluginRegistry::register_effect`, lines 140-142. -/
def register (r : Registry) (e : Effect) : Registry := r.insert e.name e

/-- `PluginRegistry::get_effect`, lines 145-147. -/
def getEffect (r : Registry) (name : Str) : Option Effect := r.get name

/-- `PluginRegistry::list_effects`, lines 150-152; the order is that of the hash map and not claimed. -/
def listEffects (r : Registry) : List Str := r.map (·.1)

/-- `PluginRegistry::unregister_effect`, lines 155-157. -/
def unregister (r : Registry) (name : Str) : Option Effect × Registry := (r.get name, r.erase name)

/-- `PluginRegistry::clear`, lines 160-162. -/
def clear (_ : Registry) : Registry := []

/-- A call on the registry. -/
inductive Call where
  | register (e : Effect)
  | unregister (name : Str)
  | clear

/-- One call. -/
def call (r : Registry) : Call → Registry
  | .register e => register r e
  | .unregister n => (unregister r n).2
  | .clear => clear r

/-- A history of calls, beginning with `PluginRegistry::new`, lines 133-137. -/
def history (cs : List Call) : Registry := cs.foldl call []

/-- The parameters after a history of `set`. -/
def Params.history (strength : Rat) (ss : List (Str × Value)) : Params := ss.foldl (fun p s => p.set s.1 s.2) (.new strength)

/-- `GlowEffect`, effects/mod.rs lines 7-45. -/
def glow (_radius : Rat) : Effect :=
  { name := "Glow".toList, version := "1.0.0".toList, apply := fun pixels _ _ _ => some pixels, shader := none }

end Verif.Plugin
