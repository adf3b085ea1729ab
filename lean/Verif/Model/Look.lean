import Verif.Model.Segment
/-!
# The look of a run of text — `crates/ass-renderer/src/pipeline/build/text/{colors,defaults,effects,mod}.rs`,
`crates/ass-renderer/src/pipeline/build/style.rs`

`f32` numbers are exact rationals; the parser of `f32` is the parameter `num`.  The tags of a run are those after its `\t` animations.
-/
namespace Verif.Look
open Verif
open Verif.Color (Rgba)
open Verif.Segment (Tags Field Val Seg Fade KaraokeStyle parseU8)

/-! ## Tags -/

/-- A colour set by a tag. -/
def colorOf (t : Tags) (f : Field) : Option Rgba :=
  match t.vals.get f with
  | some (.color c) => some c
  | _ => none

/-- A byte set by a tag. -/
def byteOf (t : Tags) (f : Field) : Option Nat :=
  match t.vals.get f with
  | some (.byte n) => some n
  | _ => none

/-- A number set by a tag. -/
def numberOf (t : Tags) (f : Field) : Option Rat :=
  match t.vals.get f with
  | some (.number v) => some v
  | _ => none

/-- A switch set by a tag. -/
def flagOf (t : Tags) (f : Field) : Option Bool :=
  match t.vals.get f with
  | some (.flag b) => some b
  | _ => none

/-- A point set by a tag. -/
def pointOf (t : Tags) (f : Field) : Option (Rat × Rat) :=
  match t.vals.get f with
  | some (.point x y) => some (x, y)
  | _ => none

/-- `tags.fade`. -/
def fadeOf (t : Tags) : Option Fade :=
  match t.vals.get .fade with
  | some (.fade f) => some f
  | _ => none

/-- `tags.clip`. -/
def clipOf (t : Tags) : Option Segment.Clip :=
  match t.vals.get .clip with
  | some (.clip c) => some c
  | _ => none

/-- `tags.karaoke`: duration and style. -/
def karaokeOf (t : Tags) : Option (Nat × KaraokeStyle) :=
  match t.vals.get .karaoke with
  | some (.karaoke d k) => some (d, k)
  | _ => none

/-! ## What the style says -/

/-- The fields of `OwnedStyle` in use here, style.rs lines 12-40. -/
structure Style where
  primary : Str
  secondary : Str
  outlineColour : Str
  back : Str
  bold : Str
  italic : Str
  underline : Str
  strikeout : Str
  scaleX : Str
  scaleY : Str
  angle : Str
  borderStyle : Str
  outline : Str
  shadow : Str

/-- The three colour channels of a number, style.rs lines 102-107. -/
def bgr (v alpha : Nat) : Rgba := ⟨v % 256, v / 256 % 256, v / 65536 % 256, alpha⟩

/-- `parse_ass_color`, style.rs lines 82-111. -/
def parseAssColor (s : Str) : Rgba :=
  match stripPrefix ['&', 'H'] (Transform.trimEndChar '&' s) with
  | none => ⟨255, 255, 255, 255⟩
  | some hex =>
    match parseUnsigned 16 u32Bound hex with
    | none => ⟨255, 255, 255, 255⟩
    | some v => if byteLen hex ≥ 8 then bgr v (255 - v / 16777216 % 256) else bgr v 255

/-- `TextDefaults`, without the fields for shaping. -/
structure Defaults where
  bold : Bool
  italic : Bool
  underline : Bool
  strikeout : Bool
  primary : Rgba
  secondary : Rgba
  outlineColour : Rgba
  back : Rgba
  outline : Rat
  shadow : Rat
  scaleX : Rat
  scaleY : Rat

/-- A number of the style with its default. -/
def styleNumber (num : Str → Option Rat) (st : Option Style) (f : Style → Str) (d : Rat) : Rat :=
  (st.map fun s => (num (f s)).getD d).getD d

/-- `resolve_text_defaults`, defaults.rs lines 10-94; `scaled` is `scaled_border_and_shadow`. -/
def defaults (num : Str → Option Rat) (scaled : Bool) (sy : Rat) (st : Option Style) : Defaults where
  bold := (st.map fun s => decide (s.bold = "-1".toList)).getD false
  italic := (st.map fun s => decide (s.italic = "-1".toList)).getD false
  underline := (st.map fun s => decide (s.underline = "-1".toList)).getD false
  strikeout := (st.map fun s => decide (s.strikeout = "-1".toList)).getD false
  primary := (st.map fun s => parseAssColor s.primary).getD ⟨255, 255, 255, 255⟩
  secondary := (st.map fun s => parseAssColor s.secondary).getD ⟨255, 0, 0, 255⟩
  outlineColour := (st.map fun s => parseAssColor s.outlineColour).getD ⟨0, 0, 0, 255⟩
  back := (st.map fun s => parseAssColor s.back).getD ⟨0, 0, 0, 128⟩
  outline := styleNumber num st (·.outline) 2 * (if scaled then sy else 1)
  shadow := styleNumber num st (·.shadow) 2 * (if scaled then sy else 1)
  scaleX := styleNumber num st (·.scaleX) 100
  scaleY := styleNumber num st (·.scaleY) 100

/-! ## Colours -/

/-- A `u32` sum. -/
def add32 (a b : Nat) : Outcome Nat := if a + b < u32Bound then .ok (a + b) else .panic

/-- The long fade, colors.rs lines 107-136, as opacity from 0 to 255. -/
def longOpacity (a1 a2 a3 t1 t2 t3 t4 now : Nat) : Rat :=
  255 -
    (if now ≤ t1 then (a1 : Rat)
     else if now < t2 then (a1 : Rat) + ((a2 : Rat) - (a1 : Rat)) * ((now - t1 : Nat) : Rat) / ((max (t2 - t1) 1 : Nat) : Rat)
     else if now ≤ t3 then (a2 : Rat)
     else if now < t4 then (a2 : Rat) + ((a3 : Rat) - (a2 : Rat)) * ((now - t3 : Nat) : Rat) / ((max (t4 - t3) 1 : Nat) : Rat)
     else (a3 : Rat))

/-- `min(1.0)`. -/
def atMost1 (x : Rat) : Rat := if x ≤ 1 then x else 1

/-- The short fade, colors.rs lines 139-156, with the end of the fade-in. -/
def shortOpacity (inEnd tin tout start stop now : Nat) : Rat :=
  if now < inEnd then 255 * atMost1 (((now - start : Nat) : Rat) / ((max tin 1 : Nat) : Rat))
  else if stop - tout ≤ now ∧ stop - tout < stop then 255 * atMost1 (((stop - now : Nat) : Rat) / ((max tout 1 : Nat) : Rat))
  else 255

/-- `fade_alpha`, colors.rs lines 98-157. -/
def opacity (f : Fade) (start stop now : Nat) : Outcome Rat :=
  match f.alpha_middle with
  | some a2 =>
    (match add32 start f.time_start with
     | .ok t1 =>
       (match add32 t1 (f.time_fade_in.getD 0) with
        | .ok t2 =>
          (match add32 start f.time_end with
           | .ok t4 => .ok (longOpacity f.alpha_start a2 f.alpha_end t1 t2 (t4 - f.time_fade_out.getD 0) t4 now)
           | _ => .panic)
        | _ => .panic)
     | _ => .panic)
  | none =>
    (match add32 start f.time_start with
     | .ok t => .ok (shortOpacity t f.time_start f.time_end start stop now)
     | _ => .panic)

/-- `as u8` of an `f32`: cut off and saturating. -/
def toU8 (x : Rat) : Nat := if x < 0 then 0 else if 255 < x then 255 else x.floor.toNat

/-- A colour with its alpha from the style or from a tag, colors.rs lines 70-93. -/
def mixed (own : Option Rgba) (style : Rgba) (alpha : Option Nat) : Rgba := { own.getD style with a := alpha.getD style.a }

/-- `resolve_run_colors`, colors.rs lines 58-168: primary, outline and shadow. -/
def colors (d : Defaults) (t : Tags) (start stop now : Nat) : Outcome (Rgba × Rgba × Rgba) :=
  let p := mixed (colorOf t .primary) d.primary ((byteOf t .alpha1).or (byteOf t .alpha))
  let o := mixed (colorOf t .outline) d.outlineColour (byteOf t .alpha3)
  let s := mixed (colorOf t .shadow) d.back (byteOf t .alpha4)
  match fadeOf t with
  | none => .ok (p, o, s)
  | some f =>
    match opacity f start stop now with
    | .ok k =>
      .ok ({ p with a := toU8 ((p.a : Rat) * (k / 255)) }, { o with a := toU8 ((o.a : Rat) * (k / 255)) },
        { s with a := toU8 ((s.a : Rat) * (k / 255)) })
    | _ => .panic

/-! ## Effects -/

/-- `TextEffect`, without karaoke. -/
inductive Effect where
  | bold | italic | underline | strikethrough
  | opaqueBox (c : Rgba) (x y : Rat)
  | outline (c : Rgba) (x y : Rat)
  | shadow (c : Rgba) (x y : Rat)
  | blur (r : Rat)
  | edgeBlur (r : Rat)
  | rotation (x y z : Rat) (origin : Option (Rat × Rat))
  | shear (x y : Rat)
  | scale (x y : Rat)
  | clip (x1 y1 x2 y2 : Rat) (inverse : Bool)
deriving DecidableEq

/-- `abs() > 0.01`. -/
def far (x : Rat) : Bool := decide (1 / 100 < x ∨ 1 / 100 < -x)

/-- A switch, effects.rs lines 30-47. -/
def switch (own : Option Bool) (style : Bool) (e : Effect) : List Effect := if own.getD style then [e] else []

/-- A length that may be scaled: that of the axis, or that of both axes, or the style's; effects.rs lines 51-74 and 96-119. -/
def length (scaled : Bool) (axis both : Option Rat) (sAxis sBoth style : Rat) : Rat :=
  if scaled then ((axis.map (· * sAxis)).or (both.map (· * sBoth))).getD style else (axis.or both).getD style

/-- The border, effects.rs lines 51-92. -/
def border (scaled : Bool) (sx sy : Rat) (d : Defaults) (st : Option Style) (t : Tags) (c : Rgba) : List Effect :=
  let x := length scaled (numberOf t .borderX) (numberOf t .border) sx sy d.outline
  let y := length scaled (numberOf t .borderY) (numberOf t .border) sy sy d.outline
  if (st.bind fun s => parseU8 (trim s.borderStyle)).getD 1 = 3 then [.opaqueBox c x y]
  else if 0 < x ∨ 0 < y then [.outline c x y] else []

/-- The shadow, effects.rs lines 96-127. -/
def shade (scaled : Bool) (sx sy : Rat) (d : Defaults) (t : Tags) (c : Rgba) : List Effect :=
  let x := length scaled (numberOf t .shadowX) (numberOf t .shadowDepth) sx sx d.shadow
  let y := length scaled (numberOf t .shadowY) (numberOf t .shadowDepth) sy sy d.shadow
  if x ≠ 0 ∨ y ≠ 0 then [.shadow c x y] else []

/-- Blur, effects.rs lines 130-147. -/
def blurs (sy : Rat) (t : Tags) : List Effect :=
  (if 0 < (numberOf t .blur).getD 0 then [.blur ((numberOf t .blur).getD 0 * sy)] else []) ++
  (if 0 < (numberOf t .blurEdges).getD 0 then [.edgeBlur ((numberOf t .blurEdges).getD 0)] else [])

/-- Rotation, effects.rs lines 150-163; `tags.font.angle` is never set by the segmenter and is left out. -/
def rotated (sx sy : Rat) (t : Tags) : List Effect :=
  let x := (numberOf t .rotationX).getD 0
  let y := (numberOf t .rotationY).getD 0
  let z := (numberOf t .rotationZ).getD 0
  if x ≠ 0 ∨ y ≠ 0 ∨ z ≠ 0 then [.rotation x y z ((pointOf t .origin).map fun o => (o.1 * sx, o.2 * sy))] else []

/-- Shear, effects.rs lines 166-173. -/
def sheared (t : Tags) : List Effect :=
  match numberOf t .shearX with
  | some x => if x ≠ 0 ∨ (numberOf t .shearY).getD 0 ≠ 0 then [.shear x ((numberOf t .shearY).getD 0)] else []
  | none => []

/-- Scale, effects.rs lines 179-186. -/
def resized (d : Defaults) (t : Tags) : List Effect :=
  let x := (numberOf t .scaleX).getD d.scaleX
  let y := (numberOf t .scaleY).getD d.scaleY
  if far (x - 100) ∨ far (y - 100) then [.scale x y] else []

/-- Clip, effects.rs lines 189-197. -/
def clipped (sx sy : Rat) (t : Tags) : List Effect :=
  match clipOf t with
  | some c => [.clip (c.x1 * sx) (c.y1 * sy) (c.x2 * sx) (c.y2 * sy) c.inverse]
  | none => []

/-- `push_text_effects`, effects.rs lines 11-203.  The baseline offset, lines 200-202, is never set by the segmenter and is left
out. -/
def effects (scaled : Bool) (sx sy : Rat) (d : Defaults) (st : Option Style) (t : Tags) (outlineC shadowC : Rgba) : List Effect :=
  switch (flagOf t .bold) d.bold .bold ++ switch (flagOf t .italic) d.italic .italic ++
  switch (flagOf t .underline) d.underline .underline ++ switch (flagOf t .strikeout) d.strikeout .strikethrough ++
  border scaled sx sy d st t outlineC ++ shade scaled sx sy d t shadowC ++ blurs sy t ++ rotated sx sy t ++ sheared t ++
  resized d t ++ clipped sx sy t

/-! ## Lines -/

/-- The parts of a segment with line breaks, colors.rs lines 25-42: the lines finished and the line begun.  `first` is `i = 0`. -/
def addParts (g : Seg) : Bool → List Seg → List Str → List (List Seg) × List Seg
  | _, cur, [] => ([], cur)
  | first, cur, p :: ps =>
    let done := if ¬ first ∧ cur ≠ [] then [cur] else []
    let cur := if ¬ first ∧ cur ≠ [] then [] else cur
    let r := addParts g false (if p ≠ [] then cur ++ [{ g with text := p }] else cur) ps
    (done ++ r.1, r.2)

/-- The loop of `split_into_logical_lines`, colors.rs lines 19-46, with the line begun. -/
def linesLoop : List Seg → List Seg → List (List Seg)
  | cur, [] => if cur ≠ [] then [cur] else []
  | cur, g :: gs =>
    if g.text = [] then linesLoop cur gs
    else if '\n' ∈ g.text then (addParts g true cur (splitOn '\n' g.text)).1 ++ linesLoop (addParts g true cur (splitOn '\n' g.text)).2 gs
    else linesLoop (cur ++ [g]) gs

/-- `split_into_logical_lines`, colors.rs lines 15-54. -/
def logicalLines (gs : List Seg) : List (List Seg) := linesLoop [] gs

/-! ## Karaoke -/

/-- The progress of a syllable, mod.rs lines 278-289. -/
def syllable (start duration now : Nat) : Outcome Rat :=
  match add32 start duration with
  | .ok stop => .ok (if now < start then 0 else if stop ≤ now then 1 else ((now - start : Nat) : Rat) / (duration : Rat))
  | _ => .panic

/-- The runs of a line, mod.rs lines 166-311, with the time of the syllables so far.  Runs with a drawing mode above 0 are drawn as
shapes, lines 171-183; they get no entry.  An entry is the progress of a run, if it has karaoke. -/
def sing (start now : Nat) : Nat → List Tags → Outcome (List (Option Rat))
  | _, [] => .ok []
  | acc, t :: ts =>
    if 0 < (byteOf t .drawing).getD 0 then sing start now acc ts
    else
      match karaokeOf t with
      | none =>
        (match sing start now acc ts with
         | .ok l => .ok (none :: l)
         | _ => .panic)
      | some (d, _) =>
        (match add32 start acc with
         | .ok a =>
           (match syllable a d now with
            | .ok k =>
              (match add32 acc d with
               | .ok acc' =>
                 (match sing start now acc' ts with
                  | .ok l => .ok (some k :: l)
                  | _ => .panic)
               | _ => .panic)
            | _ => .panic)
         | _ => .panic)

/-- All lines, mod.rs lines 125-330: the time starts anew with each line, line 154. -/
def singLines (start now : Nat) : List (List Tags) → Outcome (List (List (Option Rat)))
  | [] => .ok []
  | l :: ls =>
    match sing start now 0 l with
    | .ok x =>
      (match singLines start now ls with
       | .ok xs => .ok (x :: xs)
       | _ => .panic)
    | _ => .panic

/-- The colour of what is not sung yet, mod.rs lines 293-295. -/
def unsung (d : Defaults) (t : Tags) : Rgba := { (colorOf t .secondary).getD d.secondary with a := d.secondary.a }

end Verif.Look
