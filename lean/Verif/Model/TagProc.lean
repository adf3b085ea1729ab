import Verif.Model.Segment
/-!
# All tags of an event at once — `crates/ass-renderer/src/pipeline/tag_processor/mod.rs`

Most arms of `process_single_tag` are the same, word for word, as those of the segmenter's `process_tag_block`
(text_segmenter/apply.rs lines 33-299), so `Segment.applyTag` is used for them.
-/
namespace Verif.TagProc
open Verif
open Verif.Segment (Tags Field Val)

/-- `ProcessedTags`, types.rs lines 10-45: `tags` has the fields that the segmenter sets too; `start` is the `start_time` within
`karaoke`. -/
structure Processed where
  tags : Tags
  angle : Option Rat
  encoding : Option Nat
  baseline : Option Rat
  start : Option Nat
  reset : Option Str
  breaks : List Nat
  spaces : List Nat
deriving DecidableEq

/-- `ProcessedTags::default()`. -/
def Processed.default : Processed := ⟨Tags.default, none, none, none, none, none, [], []⟩

/-- Setting something if the argument was understood. -/
def orKeep {α : Type} (new old : Option α) : Option α :=
  match new with
  | some v => some v
  | none => old

/-- `\kt`, mod.rs lines 331-344. -/
def karaokeStart (args : Str) (p : Processed) : Processed :=
  match parseU32 args with
  | none => p
  | some t =>
    if (p.tags.vals.get .karaoke).isSome then { p with start := some t }
    else { p with tags := p.tags.setOpt .karaoke (some (.karaoke 0 .basic)), start := some t }

/-- The arms that the segmenter has too, mod.rs lines 77-138, 144-189, 197-257, 271-330 and 347-355; a rotation also sets `angle`
(lines 164-169), a syllable has no start of its own (lines 294-330). -/
def common (f32 : Str → Option Rat) (name args : Str) (p : Processed) : Outcome Processed :=
  match Segment.applyTag f32 name args p.tags with
  | .ok t => .ok { p with
      tags := t
      angle := if name = "frz".toList ∨ name = "fr".toList then orKeep (f32 args) p.angle else p.angle
      start := if (Segment.karaokeTag name).isSome ∧ (parseU32 args).isSome then none else p.start }
  | .err => .err
  | .panic => .panic

/-- `process_single_tag`, mod.rs lines 74-363. -/
def single (f32 : Str → Option Rat) (name args : Str) (p : Processed) : Outcome Processed :=
  if name = "fn".toList then .ok { p with tags := p.tags.setOpt .fontName (some (.text (trim args))) }
  else if name = "fe".toList then .ok { p with encoding := orKeep (Segment.parseU8 args) p.encoding }
  else if name = "r".toList then .ok { p with reset := some (trim args) }
  else if name = "pbo".toList then .ok { p with baseline := orKeep (f32 args) p.baseline }
  else if name = "kt".toList then .ok (karaokeStart args p)
  else common f32 name args p

/-- The loop over the tags, mod.rs lines 40-42. -/
def all (f32 : Str → Option Rat) : List Override.Tag → Processed → Outcome Processed
  | [], p => .ok p
  | t :: l, p =>
    match single f32 t.name t.args p with
    | .ok p' => all f32 l p'
    | .err => .err
    | .panic => .panic

/-- The places of a character, mod.rs lines 49-69: `n` bytes have been copied. -/
def places (x : Char) : Nat → Str → List Nat
  | _, [] => []
  | n, c :: s => if c = x then n :: places x (n + c.utf8Size) s else places x (n + c.utf8Size) s

/-- `process_event_tags`, mod.rs lines 24-72, without an extension registry: the tags and the text, which is copied as it is. -/
def process (f32 : Str → Option Rat) (text : Str) : Outcome (Processed × Str) :=
  match Override.analyze text with
  | .err => .err
  | .panic => .panic
  | .ok a =>
    match all f32 a.tags Processed.default with
    | .ok p => .ok ({ p with breaks := places '\n' 0 a.plain, spaces := places ' ' 0 a.plain }, a.plain)
    | .err => .err
    | .panic => .panic

end Verif.TagProc
