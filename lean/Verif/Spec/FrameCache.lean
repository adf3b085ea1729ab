import Verif.Model.FrameCache
/-!
# Specification: rendering without a cache
-/
namespace Verif.Spec.FC
open Verif Verif.FrameCache

variable {S I : Type} (act : Script S → Nat → List Ev) (paint : I → Ctx → Script S → List Ev → Nat → I) (blank : I)

/-- The context a script asks for: its declared resolutions, the given ones where it declares none. -/
def ctxFor (s : Script S) (c : Ctx) : Ctx where
  w := c.w
  h := c.h
  play := match s.play with | some p => p | none => c.play
  storage := match s.layout with | some l => l | none => c.storage

/-- The frame of a renderer with context `c` that remembers nothing. -/
def direct (c : Ctx) (s : Script S) (t : Nat) : Frame I :=
  ⟨if act s t = [] then blank else paint blank (ctxFor s c) s (act s t) t, c.w, c.h, t⟩

/-- The text contains one of the tags whose effect depends on time: transformation, movement, fading and
the karaoke tags in either case. -/
def TimeDependent (text : Str) : Prop :=
  ∃ tag ∈ ["\\t".toList, "\\move".toList, "\\fad".toList, "\\k".toList, "\\K".toList],
    ∃ a b, text = a ++ tag ++ b

/-- Events without animation tags look the same at all times. -/
def StaticWhenPlain (s : Script S) : Prop :=
  ∀ c (evs : List Ev) t t', (∀ e ∈ evs, ¬ TimeDependent e.text) → paint blank c s evs t = paint blank c s evs t'

/-- Within one script the place of its text identifies an event. -/
def TextIdentifies (s : Script S) : Prop :=
  ∀ t t', (act s t).map (fun e => (e.ptr, byteLen e.text)) = (act s t').map (fun e => (e.ptr, byteLen e.text)) →
    act s t = act s t'

end Verif.Spec.FC
