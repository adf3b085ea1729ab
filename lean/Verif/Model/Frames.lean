import Verif.Model.Str
/-!
# Frames and their shared buffers — `crates/ass-renderer/src/renderer/frame.rs`; blending of two colours —
`crates/ass-renderer/src/pipeline/compositing/mod.rs`; choice of a backend — `crates/ass-renderer/src/renderer/probing.rs`

Bytes are natural numbers below 256.  A buffer lives in a heap and a frame holds its place there (`Arc`); the strong count of a buffer
is the number of living frames that hold it (frames are the only holders; weak references do not occur).  The heap only grows: freeing
and reuse of memory is left out.
-/
namespace Verif.Frames

/-- `PixelFormat`, frame.rs lines 25-32. -/
inductive Format where
  | rgba
  | bgra
  | rgb
deriving DecidableEq, Repr

/-- `Frame`, lines 15-21; `ptr` is the `Arc`. -/
structure Frame where
  ptr : Nat
  width : Nat
  height : Nat
  time : Nat
  format : Format
deriving DecidableEq, Repr

/-- The heap, and the frames of a program: one entry for each variable, `none` once it has been moved or dropped. -/
structure World where
  heap : List (List Nat)
  frames : List (Option Frame)
deriving DecidableEq, Repr

/-- What can be read of a frame: `data`, `width`, `height`, `timestamp`, `format` (lines 85-122). -/
structure Picture where
  bytes : List Nat
  width : Nat
  height : Nat
  time : Nat
  format : Format
deriving DecidableEq, Repr

/-- What a program may do with its frames. -/
inductive Op where
  | new (bytes : List Nat) (width height time : Nat) (format : Format)
  | empty (width height time : Nat)
  | copy (i : Nat)
  | retime (i time : Nat)
  | write (i k b : Nat)
  | toRgba (i : Nat)
  | drop (i : Nat)
deriving DecidableEq, Repr

/-- `data` and the other getters, lines 85-122. -/
def view (heap : List (List Nat)) (f : Frame) : Picture :=
  ⟨(heap[f.ptr]?).getD [], f.width, f.height, f.time, f.format⟩

/-- All frames as they can be read. -/
def views (w : World) : List (Option Picture) := w.frames.map (fun f => f.map (view w.heap))

/-- The frame in variable `i`. -/
def frame (w : World) (i : Nat) : Option Frame := (w.frames[i]?).bind id

/-- `Arc::strong_count`. -/
def strong (w : World) (p : Nat) : Nat := w.frames.countP (fun f => f.map (·.ptr) == some p)

/-- `Frame::with_format`, lines 52-66, and `new`, lines 36-44. -/
def alloc (w : World) (bytes : List Nat) (width height time : Nat) (format : Format) : World :=
  ⟨w.heap ++ [bytes], w.frames ++ [some ⟨w.heap.length, width, height, time, format⟩]⟩

/-- `width * height * 4` in 32 bits (lines 70 and 149); `none` = overflow (a panic in a build with checks). -/
def size (width height : Nat) : Option Nat :=
  if width * height < 2 ^ 32 ∧ width * height * 4 < 2 ^ 32 then some (width * height * 4) else none

/-- `Arc::make_mut` on the buffer of frame `i`, followed by the change `g` of its bytes: in place if nobody else holds the buffer,
otherwise in a copy. -/
def mutate (w : World) (i : Nat) (f : Frame) (g : List Nat → List Nat) : World :=
  let bytes := (w.heap[f.ptr]?).getD []
  if strong w f.ptr = 1 then ⟨w.heap.set f.ptr (g bytes), w.frames⟩
  else ⟨w.heap ++ [g bytes], w.frames.set i (some { f with ptr := w.heap.length })⟩

/-- The loop of lines 142-144: `chunks_exact_mut(4)` with `swap(0, 2)`. -/
def swapChunks : List Nat → List Nat
  | a :: b :: c :: d :: r => c :: b :: a :: d :: swapChunks r
  | r => r

/-- The loop of lines 150-152: `chunks_exact(3)` with 255 put behind each. -/
def addAlpha : List Nat → List Nat
  | a :: b :: c :: r => a :: b :: c :: 255 :: addAlpha r
  | _ => []

/-- Sets the format of frame `i`, lines 145 and 154. -/
def setFormat (w : World) (i : Nat) : World :=
  match frame w i with
  | some f => ⟨w.heap, w.frames.set i (some { f with format := .rgba })⟩
  | none => w

/-- `Frame::to_rgba`, lines 138-158; the result takes the place of the variable consumed. -/
def toRgba (w : World) (i : Nat) (f : Frame) : Option World :=
  match f.format with
  | .rgba => some w
  | .bgra => some (setFormat (mutate w i f swapChunks) i)
  | .rgb =>
    (size f.width f.height).map (fun _ =>
      setFormat ⟨w.heap ++ [addAlpha ((w.heap[f.ptr]?).getD [])], w.frames.set i (some { f with ptr := w.heap.length })⟩ i)

/-- One action; `none`: a variable that is no longer there (which the compiler refuses), an index out of range or an overflow. -/
def step (w : World) : Op → Option World
  | .new bytes width height time format => some (alloc w bytes width height time format)
  | .empty width height time => (size width height).map (fun n => alloc w (List.replicate n 0) width height time .rgba)
  | .copy i => (frame w i).map (fun f => ⟨w.heap, w.frames ++ [some f]⟩)
  | .retime i t => (frame w i).map (fun f => ⟨w.heap, w.frames ++ [some { f with time := t }]⟩)
  | .write i k b =>
    match frame w i with
    | some f => if k < ((w.heap[f.ptr]?).getD []).length then some (mutate w i f (fun l => l.set k b)) else none
    | none => none
  | .toRgba i => (frame w i).bind (fun f => toRgba w i f)
  | .drop i => (frame w i).map (fun _ => ⟨w.heap, w.frames.set i none⟩)

/-- A whole history. -/
def run (w : World) : List Op → Option World
  | [] => some w
  | o :: r => (step w o).bind (fun w' => run w' r)

/-- `into_buffer`, lines 100-102: the buffer itself if nobody else holds it, otherwise a copy. -/
def intoBuffer (w : World) (i : Nat) : Option (List Nat) :=
  (frame w i).map (fun f => if strong w f.ptr = 1 then (w.heap[f.ptr]?).getD [] else ((w.heap[f.ptr]?).getD []).map id)

/-- `bytes_per_pixel`, lines 125-130. -/
def bytesPerPixel : Format → Nat
  | .rgba => 4
  | .bgra => 4
  | .rgb => 3

/-- `stride`, lines 133-135. -/
def stride (p : Picture) : Nat := p.width * bytesPerPixel p.format

/-- `chunks_exact(4).all(|pixel| pixel[3] == 0)`, line 164. -/
def clear : List Nat → Bool
  | _ :: _ :: _ :: d :: r => d == 0 && clear r
  | _ => true

/-- `is_empty`, lines 161-168. -/
def isEmpty (p : Picture) : Bool :=
  match p.format with
  | .rgb => false
  | _ => clear p.bytes

/-! ## Blending -/

/-- A colour with red, green, blue, alpha. -/
structure Px where
  r : Nat
  g : Nat
  b : Nat
  a : Nat
deriving DecidableEq, Repr

/-- One channel, compositing/mod.rs lines 76-78 and 82; the result is cast to a byte. -/
def channel (s d a : Nat) : Nat := ((s * a + d * (255 - a) + 255) / 256) % 256

/-- `alpha_blend`, lines 57-85. -/
def alphaBlend (src dst : Px) : Px :=
  if src.a = 0 then dst
  else if src.a = 255 ∧ dst.a = 0 then src
  else ⟨channel src.r dst.r src.a, channel src.g dst.g src.a, channel src.b dst.b src.a, channel 255 dst.a src.a⟩

/-- `composite_layers`, lines 25-37, with `composite_layer`, lines 40-49, which does nothing. -/
def compositeLayers {L : Type} (layers : List L) (width height : Nat) : Option (List Nat) :=
  (size width height).map (fun n => layers.foldl (fun out _ => out) (List.replicate n 0))

/-! ## Backends -/

/-- `BackendType`, backends/mod.rs lines 32-39. -/
inductive Backend where
  | auto
  | software
  | gpu
deriving DecidableEq, Repr

/-- The features of a build. -/
structure Features where
  software : Bool
  gpu : Bool

/-- `BackendProber::new`, probing.rs lines 21-31. -/
def prober (f : Features) : List Backend := (if f.software then [.software] else []) ++ (if f.gpu then [.gpu] else [])

/-- `is_backend_available`, lines 82-92. -/
def available (f : Features) : Backend → Bool
  | .software => f.software
  | .gpu => f.gpu
  | .auto => false

/-- `try_create_backend`, lines 56-79; `make` is `SoftwareBackend::new` and `GpuBackend::new`. -/
def tryCreate {B : Type} (f : Features) (make : Backend → Option B) (b : Backend) : Option B :=
  if available f b then make b else none

/-- `probe_best_backend`, lines 39-53. -/
def probe {B : Type} (f : Features) (make : Backend → Option B) : List Backend → Option B
  | [] => none
  | b :: r =>
    match tryCreate f make b with
    | some x => some x
    | none => probe f make r

/-- `available_backends`, lines 95-101. -/
def availableBackends (f : Features) (order : List Backend) : List Backend := order.filter (available f)

/-- `create_backend`, backends/mod.rs lines 163-200. -/
def createBackend {B : Type} (f : Features) (make : Backend → Option B) : Backend → Option B
  | .auto => if f.software then make .software else none
  | .software => if f.software then make .software else none
  | .gpu => if f.gpu then make .gpu else none

end Verif.Frames
