import Verif.Model.Str
/-!
# Frame cache and incremental rendering — `crates/ass-renderer/src/renderer/mod.rs`

The pipeline and backend are the parameter `paint` (what compositing the layers of a list of events on top
of an image gives), assumed to be a function of context, script, events and time; full rendering starts
from `blank`.  Event selection is the parameter `act` (its own model is `Verif.Select`).  Errors returned
by the pipeline are not modelled.
-/
namespace Verif.FrameCache
open Verif

/-- The parts of `RenderContext` set during rendering: size, playback and storage resolution. -/
structure Ctx where
  w : Nat
  h : Nat
  play : Nat × Nat
  storage : Nat × Nat
deriving DecidableEq, Repr

/-- An event: address and length of its text, the text, start and end time. -/
structure Ev where
  ptr : Nat
  text : Str
  start : Nat
  stop : Nat
deriving DecidableEq, Repr

/-- A script: the resolutions its first script-info section gives, and the rest (styles and events). -/
structure Script (S : Type) where
  play : Option (Nat × Nat)
  layout : Option (Nat × Nat)
  rest : S

/-- `Frame`: pixels, size, timestamp. -/
structure Frame (I : Type) where
  img : I
  w : Nat
  h : Nat
  time : Nat
deriving DecidableEq, Repr

/-- `Renderer`: context and frame cache (lines 27-37). -/
structure Renderer (I : Type) where
  ctx : Ctx
  cache : Option (List (Nat × Nat) × Frame I)

/-- Does `s` contain `p`?  (`str::contains`) -/
def contains (p : Str) : Str → Bool
  | [] => p.isPrefixOf []
  | c :: s => p.isPrefixOf (c :: s) || contains p s

/-- `event_is_animated`, lines 188-194. -/
def animated (t : Str) : Bool :=
  contains "\\t".toList t || contains "\\move".toList t || contains "\\fad".toList t ||
  contains "\\k".toList t || contains "\\K".toList t

/-- Lines 85-95: the script's resolutions are written into the context. -/
def scriptCtx {S : Type} (s : Script S) (c : Ctx) : Ctx :=
  { c with play := s.play.getD c.play, storage := s.layout.getD c.storage }

variable {S I : Type} (act : Script S → Nat → List Ev) (paint : I → Ctx → Script S → List Ev → Nat → I) (blank : I)

/-- Lines 127-141: the frame drawn afresh. -/
def draw (c : Ctx) (s : Script S) (evs : List Ev) (t : Nat) : Frame I := ⟨paint blank c s evs t, c.w, c.h, t⟩

/-- The cache key, lines 113-118. -/
def cacheKey (evs : List Ev) : Option (List (Nat × Nat)) :=
  if evs.any (fun e => animated e.text) then none else some (evs.map (fun e => (e.ptr, byteLen e.text)))

/-- `render_frame`, lines 83-144. -/
def renderFrame (r : Renderer I) (s : Script S) (t : Nat) : Frame I × Renderer I :=
  let c := scriptCtx s r.ctx
  let evs := act s t
  if evs = [] then (⟨blank, c.w, c.h, t⟩, { r with ctx := c })
  else
    let fresh := draw paint blank c s evs t
    match cacheKey evs, r.cache with
    | some key, some (k, f) =>
      if k = key then ({ f with time := t }, { r with ctx := c })
      else (fresh, ⟨c, some (key, fresh)⟩)
    | some key, none => (fresh, ⟨c, some (key, fresh)⟩)
    | none, _ => (fresh, ⟨c, none⟩)

/-- `set_context`, lines 244-246. -/
def setContext (r : Renderer I) (c : Ctx) : Renderer I := { r with ctx := c }

/-- Was the event visible at `t` (`compute_dirty_regions`, pipeline/build/run.rs lines 285-288, for
events with readable times). -/
def activeAt (e : Ev) (t : Nat) : Bool := decide (e.start ≤ t) && decide (e.stop > t)

/-- `render_frame_incremental`, lines 197-230, with `compute_dirty_regions` (run.rs lines 276-298: the
whole screen as soon as one of the given events changed visibility) and `composite_layers_incremental`
(software/mod.rs lines 201-232: paint over the previous pixels; one dirty region, which every layer meets). -/
def renderIncremental (r : Renderer I) (s : Script S) (t : Nat) (prev : Frame I) : Frame I :=
  let evs := act s t
  if evs.any (fun e => activeAt e prev.time != activeAt e t) then
    ⟨paint prev.img r.ctx s evs t, r.ctx.w, r.ctx.h, t⟩
  else prev

end Verif.FrameCache
