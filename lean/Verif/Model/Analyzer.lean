/-!
# The frame analyzer — `crates/ass-renderer/src/debug/analyzer/{mod,report}.rs`

`f32` arithmetic is taken to be exact.  Bytes are natural numbers.  Printing is left out.
-/
namespace Verif.Analyzer

/-- What the analyzer reads of a `Frame`, renderer/frame.rs lines 15-21. -/
structure Frame where
  w : Nat
  h : Nat
  px : List Nat
deriving DecidableEq, Repr

/-- `Region`, report.rs lines 280-287. -/
structure Region where
  minX : Nat
  minY : Nat
  maxX : Nat
  maxY : Nat
  count : Nat
  avg : List Nat
deriving DecidableEq, Repr

/-- `pixel_idx + 3 < pixels.len() && pixels[pixel_idx + 3] > 0`, mod.rs lines 110, 158. -/
def lit (f : Frame) (idx : Nat) : Bool := decide (idx * 4 + 3 < f.px.length) && decide (f.px.getD (idx * 4 + 3) 0 > 0)

/-- The variables of `flood_fill`, mod.rs lines 135-145; the top of the stack comes first. -/
structure Fill where
  visited : List Bool
  stack : List (Nat × Nat)
  minX : Nat
  minY : Nat
  maxX : Nat
  maxY : Nat
  count : Nat
  sum : Nat → Nat

/-- The neighbours pushed, mod.rs lines 177-188. -/
def push (f : Frame) (x y : Nat) (rest : List (Nat × Nat)) : List (Nat × Nat) :=
  (if y + 1 < f.h then [(x, y + 1)] else []) ++ (if y > 0 then [(x, y - 1)] else []) ++
  (if x + 1 < f.w then [(x + 1, y)] else []) ++ (if x > 0 then [(x - 1, y)] else []) ++ rest

/-- A pixel taken into the region, mod.rs lines 162-188. -/
def visit (f : Frame) (s : Fill) (x y : Nat) (rest : List (Nat × Nat)) : Fill :=
  ⟨s.visited.set (y * f.w + x) true, push f x y rest, min s.minX x, min s.minY y, max s.maxX x, max s.maxY y, s.count + 1,
    fun i => s.sum i + f.px.getD ((y * f.w + x) * 4 + i) 0⟩

/-- The body of the loop of `flood_fill`, mod.rs lines 147-188.  `visited[idx]` is always in range. -/
def popOne (f : Frame) (s : Fill) (x y : Nat) (rest : List (Nat × Nat)) : Fill :=
  if x ≥ f.w ∨ y ≥ f.h then { s with stack := rest }
  else if s.visited.getD (y * f.w + x) true then { s with stack := rest }
  else if lit f (y * f.w + x) then visit f s x y rest
  else { s with stack := rest }

/-- The loop of `flood_fill`, mod.rs lines 147-189.  The first argument bounds the number of rounds. -/
def flood (f : Frame) : Nat → Fill → Fill
  | 0, s => s
  | n + 1, s => match s.stack with
    | [] => s
    | (x, y) :: rest => flood f n (popOne f s x y rest)

/-- `flood_fill`, mod.rs lines 124-189. -/
def fillFrom (f : Frame) (visited : List Bool) (x y : Nat) : Fill :=
  flood f (4 * (f.w * f.h) + 1) ⟨visited, [(x, y)], x, y, x, y, 0, fun _ => 0⟩

/-- The region, mod.rs lines 191-198. -/
def regionOf (s : Fill) : Region :=
  ⟨s.minX, s.minY, s.maxX, s.maxY, s.count, (List.range 4).map (fun i => if s.count > 0 then s.sum i / s.count else 0)⟩

/-- The positions in the order of the loops, mod.rs lines 105-106. -/
def positions (f : Frame) : List (Nat × Nat) := (List.range f.h).flatMap (fun y => (List.range f.w).map (fun x => (x, y)))

/-- The loops of `detect_regions`, mod.rs lines 105-119. -/
def detectLoop (f : Frame) : List (Nat × Nat) → List Bool → List Region → List Region
  | [], _, rs => rs
  | (x, y) :: ps, v, rs =>
    if !v.getD (y * f.w + x) true && lit f (y * f.w + x) then
      detectLoop f ps (fillFrom f v x y).visited
        (if (fillFrom f v x y).count > 10 then rs ++ [regionOf (fillFrom f v x y)] else rs)
    else detectLoop f ps v rs

/-- `detect_regions`, mod.rs lines 96-122. -/
def detectRegions (f : Frame) : List Region := detectLoop f (positions f) (List.replicate (f.w * f.h) false) []

/-- `TextArea`, mod.rs lines 241-248. -/
structure TextArea where
  x : Nat
  y : Nat
  width : Nat
  height : Nat
  confidence : Rat
  fontSize : Nat
deriving DecidableEq, Repr

/-- `calculate_text_confidence`, mod.rs lines 250-277. -/
def confidence (r : Region) : Rat :=
  let width := r.maxX - r.minX + 1
  let height := r.maxY - r.minY + 1
  let aspect : Rat := (width : Rat) / height
  min ((if 2 ≤ aspect ∧ aspect < 20 then 3 / 10 else 0) +
    (if ((r.avg.getD 0 0 + r.avg.getD 1 0 + r.avg.getD 2 0 : Nat) : Rat) / 3 > 200 then 4 / 10 else 0) +
    (if 20 ≤ height ∧ height < 150 then 3 / 10 else 0)) 1

/-- The test for text, mod.rs lines 211-223. -/
def isText (r : Region) : Bool :=
  let width := r.maxX - r.minX + 1
  let height := r.maxY - r.minY + 1
  decide ((width : Rat) / height > 3 / 2) && decide (15 ≤ height ∧ height < 200) &&
    (decide (r.avg.getD 0 0 > 200) || decide (r.avg.getD 1 0 > 200) || decide (r.avg.getD 2 0 > 200))

/-- `detect_text_areas`, mod.rs lines 201-237; `estimate_font_size`, lines 279-282. -/
def textAreas (f : Frame) : List TextArea :=
  (detectRegions f).filterMap (fun r => if isText r then
    some ⟨r.minX, r.minY, r.maxX - r.minX + 1, r.maxY - r.minY + 1, confidence r,
      (((r.maxY - r.minY + 1 : Nat) : Rat) * (3 / 4)).floor.toNat⟩ else none)

/-- `PixelHistogram`, report.rs lines 251-277. -/
structure Hist where
  red : List Nat := List.replicate 256 0
  green : List Nat := List.replicate 256 0
  blue : List Nat := List.replicate 256 0
  alpha : List Nat := List.replicate 256 0
  visible : Nat := 0
  white : Nat := 0
  black : Nat := 0
  gray : Nat := 0
  colored : Nat := 0
deriving DecidableEq, Repr

/-- `table[v as usize] += 1`. -/
def bump (t : List Nat) (v : Nat) : List Nat := t.set v (t.getD v 0 + 1)

/-- A visible pixel put into its class, mod.rs lines 75-88. -/
def classify (t : Hist) (r g b : Nat) : Hist :=
  if r = g ∧ g = b then
    if r > 200 then { t with visible := t.visible + 1, white := t.white + 1 }
    else if r < 50 then { t with visible := t.visible + 1, black := t.black + 1 }
    else { t with visible := t.visible + 1, gray := t.gray + 1 }
  else { t with visible := t.visible + 1, colored := t.colored + 1 }

/-- One pixel, mod.rs lines 64-89. -/
def addPixel (t : Hist) (r g b a : Nat) : Hist :=
  let u := { t with red := bump t.red r, green := bump t.green g, blue := bump t.blue b, alpha := bump t.alpha a }
  if a > 0 then classify u r g b else u

/-- The loop of `calculate_pixel_histogram`, mod.rs lines 62-91. -/
def histLoop : List Nat → Hist → Hist
  | r :: g :: b :: a :: l, t => histLoop l (addPixel t r g b a)
  | _, t => t

/-- `calculate_pixel_histogram`, mod.rs lines 58-94. -/
def histogram (f : Frame) : Hist := histLoop f.px {}

/-- The loop over the values of a channel, report.rs lines 72-80: index, greatest count so far and its value. -/
def peakLoop : List Nat → Nat → Nat → Nat → Nat
  | [], _, _, v => v
  | c :: l, i, m, v => if c > m then peakLoop l (i + 1) c i else peakLoop l (i + 1) m v

/-- The peak of a channel. -/
def peak (t : List Nat) : Nat := peakLoop t 0 0 0

/-- `AnalysisReport`, report.rs lines 10-31.  `transparency`: `none` for 0 divided by 0. -/
structure Report where
  total : Nat
  visible : Nat
  transparency : Option Rat
  hist : Hist
  regions : List Region
  texts : List TextArea
  dominant : List Nat
  contrast : Rat
deriving DecidableEq, Repr

/-- `calculate_contrast_ratio`, report.rs lines 88-102. -/
def contrast (t : Hist) (visible : Nat) : Rat :=
  if t.white > 0 ∧ t.black > 0 then min ((t.white : Rat) / visible * ((t.black : Rat) / visible) * 100) 1 else 0

/-- `FrameAnalyzer::new().analyze`, mod.rs lines 39-56, `calculate_statistics`, report.rs lines 49-60; `none`: arithmetic
overflow. -/
def analyze (f : Frame) : Option Report :=
  let t := histogram f
  if f.w * f.h < 2 ^ 32 ∧ t.visible ≤ f.w * f.h then
    some ⟨f.w * f.h, t.visible, if f.w * f.h = 0 then none else some (((f.w * f.h - t.visible : Nat) : Rat) / (f.w * f.h : Nat) * 100),
      t, detectRegions f, textAreas f, [peak t.red, peak t.green, peak t.blue, peak t.alpha], contrast t t.visible⟩
  else none

end Verif.Analyzer
