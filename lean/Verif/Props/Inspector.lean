import Verif.Lemmas.Inspector
/-! Property C139: what the frame inspector shows. -/
namespace Verif.Props.Inspector
open Verif.Analyzer (Frame)
open Verif.Inspector
open Verif.Spec.Analyzer (Before Visible channel Least Most)
open Verif.Spec.Inspector

/-- A frame of 4 by 2. -/
def small : Frame := ⟨4, 2, [10, 20, 30, 255, 30, 20, 30, 200, 90, 20, 30, 1, 0, 0, 0, 0, 0, 0, 0, 0, 5, 5, 5, 5, 15, 5, 5, 5, 100, 5, 5, 5]⟩

/-- **C139 (a pixel).** The pixel at a place is the one of the frame; outside there is none. -/
theorem C139_pixel (f : Frame) (x y : Nat) (p : Pixel) : pixelAt f x y = some p ↔ Is f x y p := pixelAt_iff

example : Is small 1 1 ⟨1, 1, 5, 5, 5, 5⟩ := ⟨by decide, by decide, rfl, rfl, by decide, by decide, by decide, by decide⟩

/-- What the cursor can be told. -/
inductive Cmd where
  | load (f : Frame)
  | move (dx dy : Int)
  | set (x y : Nat)

/-- A command; `none`: a panic. -/
def step (s : Inspector) : Cmd → Option Inspector
  | .load f => some (load s f)
  | .move dx dy => move s dx dy
  | .set x y => setCursor s x y

/-- **C139 (the cursor).** Whatever is done with an inspector that gets frames with pixels (and sides below 2³¹): the cursor is
always in the frame loaded last. -/
theorem C139_cursor (l : List Cmd) (hl : ∀ f, Cmd.load f ∈ l → 0 < f.w ∧ f.w < 2 ^ 31 ∧ 0 < f.h ∧ f.h < 2 ^ 31) {s : Inspector}
    (h : l.foldlM step new = some s) : ∀ f, s.frame = some f → s.cx < f.w ∧ s.cy < f.h := by
  have key : ∀ (l : List Cmd) (s t : Inspector), (∀ f, Cmd.load f ∈ l → 0 < f.w ∧ f.w < 2 ^ 31 ∧ 0 < f.h ∧ f.h < 2 ^ 31) →
      (∀ f, s.frame = some f → (0 < f.w ∧ f.w < 2 ^ 31 ∧ 0 < f.h ∧ f.h < 2 ^ 31) ∧ s.cx < f.w ∧ s.cy < f.h) → l.foldlM step s = some t →
      ∀ f, t.frame = some f → t.cx < f.w ∧ t.cy < f.h := by
    intro l
    induction l with
    | nil =>
      intro s t _ hs h
      obtain rfl := Option.some.inj h
      exact fun f hf => (hs f hf).2
    | cons c l ih =>
      intro s t hl hs h
      rw [List.foldlM_cons] at h
      cases hc : step s c with
      | none => rw [hc] at h; cases h
      | some u =>
        rw [hc] at h
        refine ih u t (fun f hf => hl f (List.mem_cons_of_mem _ hf)) ?_ h
        cases c with
        | load g =>
          obtain rfl := Option.some.inj hc
          intro f hf
          obtain rfl := Option.some.inj hf
          have := hl g (by simp)
          refine ⟨this, ?_⟩
          show g.w / 2 < g.w ∧ g.h / 2 < g.h
          omega
        | move dx dy =>
          have hc : move s dx dy = some u := hc
          unfold move at hc
          cases hf : s.frame with
          | none =>
            rw [hf] at hc
            obtain rfl := Option.some.inj hc
            intro f hf'; rw [hf] at hf'; cases hf'
          | some g =>
            rw [hf] at hc
            obtain ⟨⟨a1, a2, a3, a4⟩, -⟩ := hs g hf
            simp only at hc
            split at hc
            · rename_i x y hx hy
              obtain rfl := Option.some.inj hc
              intro f hf'
              obtain rfl := Option.some.inj hf'
              exact ⟨⟨a1, a2, a3, a4⟩, shift_in a1 a2 hx, shift_in a3 a4 hy⟩
            · cases hc
        | set x y =>
          have hc : setCursor s x y = some u := hc
          unfold setCursor at hc
          cases hf : s.frame with
          | none =>
            rw [hf] at hc
            obtain rfl := Option.some.inj hc
            intro f hf'; rw [hf] at hf'; cases hf'
          | some g =>
            rw [hf] at hc
            obtain ⟨⟨a1, a2, a3, a4⟩, -⟩ := hs g hf
            simp only at hc
            rw [if_pos ⟨a1, a3⟩] at hc
            obtain rfl := Option.some.inj hc
            intro f hf'
            obtain rfl := Option.some.inj hf'
            refine ⟨⟨a1, a2, a3, a4⟩, ?_, ?_⟩
            · show min x (g.w - 1) < g.w; omega
            · show min y (g.h - 1) < g.h; omega
  exact key l new s hl nofun h

example : (([.load small, .move 5 (-7), .set 1 9, .move (-1) 0] : List Cmd).foldlM step new) = some ⟨some small, 0, 1⟩ := by decide

/-- **C139 (moving), partial.** A cursor in the frame moves by the steps given and stops at the edges.

Missing: steps so long that the sum does not fit in 32 bits (`C139_move_violated`). -/
theorem C139_move_partial (s : Inspector) (f : Frame) (hf : s.frame = some f) (hw : f.w < 2 ^ 31) (hh : f.h < 2 ^ 31) (hx : s.cx < f.w) (hy : s.cy < f.h)
    (dx dy : Int) (h1 : -2 ^ 31 ≤ dx) (h2 : s.cx + dx < 2 ^ 31) (h3 : -2 ^ 31 ≤ dy) (h4 : s.cy + dy < 2 ^ 31) :
    ∃ t, move s dx dy = some t ∧ t.frame = some f ∧ (t.cx : Int) = min (max (s.cx + dx) 0) (f.w - 1) ∧ (t.cy : Int) = min (max (s.cy + dy) 0) (f.h - 1) := by
  obtain ⟨x, ex, hx'⟩ := shift_spec (d := dx) (by omega) hw hx (by omega) h2
  obtain ⟨y, ey, hy'⟩ := shift_spec (d := dy) (by omega) hh hy (by omega) h4
  unfold move
  rw [hf]
  simp only
  rw [ex, ey]
  exact ⟨_, rfl, rfl, hx', hy'⟩

example : move ⟨some small, 2, 1⟩ (-1) 100 = some ⟨some small, 1, 1⟩ := by decide

theorem shift_wide {c size : Nat} {d : Int} (hs : 2 ^ 31 < size) (hs2 : size < 2 ^ 32) (hc : c < 2 ^ 31) (hd : -2 ^ 31 ≤ (c : Int) + d)
    (hd2 : (c : Int) + d < 2 ^ 31) : shift c size d = some (size - 1) := by
  have e1 : toI32 c = c := by unfold toI32; rw [if_pos hc]
  have e2 : toI32 size = (size : Int) - 2 ^ 32 := by unfold toI32; rw [if_neg (by omega)]
  unfold shift
  rw [e1, e2, if_pos ⟨hd, hd2, by omega⟩]
  unfold toU32
  congr 1
  omega

/-- **C139 (moving), violated.** In a frame wider than 2³¹ every step, even one of no pixels, puts the cursor in the last column;
in one exactly so wide every step panics. -/
theorem C139_wide_violated (s : Inspector) (f : Frame) (hf : s.frame = some f) (hh : f.h < 2 ^ 31) (hx : s.cx < 2 ^ 31) (hy : s.cy < f.h)
    (dx : Int) (h1 : -2 ^ 31 ≤ dx) (h2 : s.cx + dx < 2 ^ 31) :
    (2 ^ 31 < f.w → f.w < 2 ^ 32 → ∃ t, move s dx 0 = some t ∧ t.cx = f.w - 1) ∧ (f.w = 2 ^ 31 → move s dx 0 = none) := by
  obtain ⟨y, ey, _⟩ := shift_spec (c := s.cy) (size := f.h) (d := 0) (by omega) hh hy (by omega) (by omega)
  constructor
  · intro hw hw2
    unfold move
    rw [hf]
    simp only
    rw [ey, shift_wide hw hw2 hx (by omega) h2]
    exact ⟨_, rfl, rfl⟩
  · intro hw
    unfold move
    rw [hf]
    simp only
    rw [ey, hw]
    have : shift s.cx (2 ^ 31) dx = none := by
      unfold shift
      rw [if_neg]
      rintro ⟨_, _, h⟩
      revert h
      decide
    rw [this]

example : (move ⟨some ⟨2 ^ 31 + 5, 2, []⟩, 7, 1⟩ 0 0).map (·.cx) = some (2 ^ 31 + 4) := by decide

/-- **C139 (moving), violated.** Moving to the right edge by the greatest step panics; in a frame without pixels setting the
cursor panics, and moving it puts it far outside. -/
theorem C139_move_violated : move ⟨some small, 2, 1⟩ 2147483647 0 = none ∧ setCursor ⟨some ⟨0, 0, []⟩, 0, 0⟩ 0 0 = none ∧
    move ⟨some ⟨0, 0, []⟩, 0, 0⟩ 1 1 = some ⟨some ⟨0, 0, []⟩, 4294967295, 4294967295⟩ := by decide

/-- **C139 (a region), partial.** A rectangle that begins in the frame gives exactly the pixels of the frame in it, in reading
order, with its size within the frame, how many there are, the set of their colours and their average.

Missing: rectangles that begin outside (`C139_region_violated`). -/
theorem C139_region_partial (f : Frame) (x y w h : Nat) (h1 : x + w < 2 ^ 32) (h2 : y + h < 2 ^ 32) (hx : x ≤ f.w) (hy : y ≤ f.h) :
    ∃ r, region f x y w h = some r ∧ r.width = min w (f.w - x) ∧ r.height = min h (f.h - y) ∧
      (∀ p, p ∈ r.pixels ↔ Is f p.x p.y p ∧ x ≤ p.x ∧ p.x < x + w ∧ y ≤ p.y ∧ p.y < y + h) ∧
      r.pixels.Pairwise (fun p q => Before (p.x, p.y) (q.x, q.y)) ∧ r.hist.count = r.pixels.length ∧
      (∀ k, k ∈ r.hist.unique ↔ ∃ p ∈ r.pixels, k = (p.r, p.g, p.b, p.a)) ∧ r.hist.unique.Nodup ∧
      (r.pixels ≠ [] → average r.hist = some [(r.pixels.map (·.r)).sum / r.pixels.length, (r.pixels.map (·.g)).sum / r.pixels.length,
        (r.pixels.map (·.b)).sum / r.pixels.length, (r.pixels.map (·.a)).sum / r.pixels.length]) ∧ (r.pixels = [] → average r.hist = none) := by
  unfold region
  rw [if_pos ⟨h1, h2, by omega, by omega⟩]
  obtain ⟨a1, a2, a3, a4, a5, a6, a7⟩ := fold_colours (regionPixels f x y (min (x + w) f.w) (min (y + h) f.h)) {} (by simp)
  refine ⟨_, rfl, by dsimp only; omega, by dsimp only; omega, ?_, region_sorted, by dsimp only; rw [a5]; simp, ?_, a6, ?_, ?_⟩
  · intro p
    dsimp only
    rw [region_mem]
    constructor
    · rintro ⟨b1, b2, b3, b4, b5⟩; exact ⟨b1, b2, by omega, b4, by omega⟩
    · rintro ⟨b1, b2, b3, b4, b5⟩
      have := b1.1
      have := b1.2.1
      exact ⟨b1, b2, by omega, b4, by omega⟩
  · intro k
    dsimp only
    rw [a7]; simp
  · intro hne
    dsimp only at *
    have hpos : 0 < (regionPixels f x y (min (x + w) f.w) (min (y + h) f.h)).length := List.length_pos_iff.2 hne
    unfold average
    rw [if_neg (by rw [a5]; show ¬ 0 + _ = 0; omega), a1, a2, a3, a4, a5]
    simp
  · intro he
    dsimp only at *
    unfold average
    rw [if_pos (by rw [a5, he]; rfl)]

example : (region small 1 0 2 9).map (fun r => r.pixels.map (fun p => (p.x, p.y, p.r))) = some [(1, 0, 30), (2, 0, 90), (1, 1, 5), (2, 1, 15)] ∧
    (region small 1 0 2 9).map (fun r => (r.width, r.height, r.hist.unique.length)) = some (2, 2, 4) ∧
    (region small 1 0 2 9).map (fun r => average r.hist) = some (some [35, 12, 17, 52]) := by decide

/-- **C139 (a region), violated.** A rectangle that begins right of the frame or below it panics. -/
theorem C139_region_violated : region small 5 0 1 1 = none ∧ region small 0 3 1 1 = none := by decide

/-- **C139 (bounds).** For every frame: there are no bounds exactly if no pixel is visible; else they are those of the smallest
box around the visible pixels. -/
theorem C139_bounds (f : Frame) : (bounds f = none ↔ ∀ p, ¬ Visible f p) ∧ ∀ b, bounds f = some b →
    (∀ p, Visible f p → b.minX ≤ p.1 ∧ p.1 ≤ b.maxX ∧ b.minY ≤ p.2 ∧ p.2 ≤ b.maxY) ∧
    (∃ p, Visible f p ∧ p.1 = b.minX) ∧ (∃ p, Visible f p ∧ p.1 = b.maxX) ∧ (∃ p, Visible f p ∧ p.2 = b.minY) ∧ (∃ p, Visible f p ∧ p.2 = b.maxY) ∧
    b.minX + b.width = b.maxX + 1 ∧ b.minY + b.height = b.maxY + 1 := by
  have h0 : Boxed f [] ⟨f.w, f.h, 0, 0, false⟩ := ⟨⟨nofun, nofun⟩, fun _ => rfl, nofun, nofun⟩
  have h := fold_boxed (Analyzer.positions f) [] _ h0 (fun p hp => (Analyzer.positions_mem p).1 hp)
  rw [List.nil_append] at h
  have hin : ∀ p, Visible f p → p ∈ Analyzer.positions f := fun p hp => (Analyzer.positions_mem p).2 ⟨hp.1, hp.2.1⟩
  unfold bounds
  simp only
  generalize hb : (Analyzer.positions f).foldl (grow f) ⟨f.w, f.h, 0, 0, false⟩ = b at *
  cases hf : b.found with
  | false =>
    refine ⟨⟨fun _ p hp => ?_, fun _ => rfl⟩, nofun⟩
    have := h.found.2 ⟨p, hin p hp, hp⟩
    rw [hf] at this; cases this
  | true =>
    obtain ⟨⟨q1, a1, b1, c1⟩, ⟨q2, a2, b2, c2⟩, ⟨q3, a3, b3, c3⟩, ⟨q4, a4, b4, c4⟩⟩ := h.least hf
    refine ⟨⟨nofun, fun g => absurd b1 (g q1)⟩, ?_⟩
    intro r hr
    obtain rfl := Option.some.inj hr
    have h1 := h.bound q1 a1 b1
    have h3 := h.bound q3 a3 b3
    refine ⟨fun p hp => h.bound p (hin p hp) hp, ⟨q1, b1, c1⟩, ⟨q2, b2, c2⟩, ⟨q3, b3, c3⟩, ⟨q4, b4, c4⟩, ?_, ?_⟩
    · dsimp only; omega
    · dsimp only; omega

example : bounds small = some ⟨0, 0, 3, 1, 4, 2⟩ ∧ bounds ⟨2, 1, [1, 1, 1, 0, 9, 9, 9, 0]⟩ = none := by decide

/-- **C139 (a line).** For every frame and line: the segments are stretches of visible pixels without gaps, in order, each near
in colour to its first pixel; every visible pixel of the line is in one; and a segment that follows another without a gap begins
with a colour not near that of the other's first pixel. -/
theorem C139_line (f : Frame) (y : Nat) :
    (∀ s ∈ scanLine f y, Stretch f y s) ∧ (scanLine f y).Pairwise (fun a b => a.stop < b.start) ∧
    (∀ x p, Is f x y p → 0 < p.a → ∃ s ∈ scanLine f y, s.start ≤ x ∧ x ≤ s.stop) ∧
    (∀ a ∈ scanLine f y, ∀ b ∈ scanLine f y, a.stop + 1 = b.start → ∀ p q, a.pixels.head? = some p → b.pixels.head? = some q → ¬ Near p q) := by
  unfold scanLine
  by_cases hy : y ≥ f.h
  · rw [if_pos hy]
    refine ⟨nofun, .nil, ?_, nofun⟩
    intro x p h
    have := h.2.1
    omega
  · rw [if_neg hy]
    simp only
    have h := scan_all (f := f) (y := y) f.w (Nat.le_refl _)
    generalize (List.range f.w).foldl (scanStep f y) ([], none) = st at *
    have hcov : ∀ x p, Is f x y p → 0 < p.a → ∃ s ∈ allOf st, s.start ≤ x ∧ x ≤ s.stop := fun x p hp ha => h.cover x hp.1 p hp ha
    cases hs : st.2 with
    | none =>
      simp only
      have hall : allOf st = st.1 := by unfold allOf; rw [hs]; simp
      have h1 := h.good
      have h2 := h.sorted
      have h4 := h.apart
      rw [hall] at h1 h2 h4 hcov
      exact ⟨fun s hs => (h1 s hs).1, h2, hcov, h4⟩
    | some seg =>
      simp only
      have hall : allOf st = st.1 ++ [seg] := by unfold allOf; rw [hs]; rfl
      have h1 := h.good
      have h2 := h.sorted
      have h4 := h.apart
      rw [hall] at h1 h2 h4 hcov
      have hw : (withAverage seg).y = seg.y ∧ (withAverage seg).start = seg.start ∧ (withAverage seg).stop = seg.stop ∧ (withAverage seg).pixels = seg.pixels := by
        unfold withAverage
        split <;> exact ⟨rfl, rfl, rfl, rfl⟩
      obtain ⟨w1, w2, w3, w4⟩ := hw
      have back : ∀ s ∈ st.1 ++ [withAverage seg], ∃ t ∈ st.1 ++ [seg], t.y = s.y ∧ t.start = s.start ∧ t.stop = s.stop ∧ t.pixels = s.pixels := by
        intro s hs
        rcases List.mem_append.1 hs with g | g
        · exact ⟨s, by simp [g], rfl, rfl, rfl, rfl⟩
        · simp only [List.mem_cons, List.not_mem_nil, or_false] at g
          subst g
          exact ⟨seg, by simp, w1.symm, w2.symm, w3.symm, w4.symm⟩
      refine ⟨?_, ?_, ?_, ?_⟩
      · intro s hs
        obtain ⟨t, a, b, c, d, e⟩ := back s hs
        obtain ⟨k1, k2, k3, k4, k5⟩ := (h1 t a).1
        rw [b] at k1
        rw [c, d] at k2 k3
        rw [e] at k3 k4 k5
        rw [c] at k4
        exact ⟨k1, k2, k3, k4, k5⟩
      · rw [List.pairwise_append] at h2 ⊢
        refine ⟨h2.1, by simp, ?_⟩
        intro a ha b hb
        simp only [List.mem_cons, List.not_mem_nil, or_false] at hb
        subst hb
        rw [w2]
        exact h2.2.2 a ha seg (by simp)
      · intro x p hp ha
        obtain ⟨s, k1, k2⟩ := hcov x p hp ha
        rcases List.mem_append.1 k1 with g | g
        · exact ⟨s, by simp [g], k2⟩
        · simp only [List.mem_cons, List.not_mem_nil, or_false] at g
          subst g
          exact ⟨withAverage s, by simp, by rw [w2, w3]; exact k2⟩
      · intro a ha b hb e p q hp hq
        obtain ⟨t, a1, -, -, d1, e1⟩ := back a ha
        obtain ⟨u, a2, -, c2, -, e2⟩ := back b hb
        exact h4 t a1 u a2 (by rw [d1, c2]; exact e) p q (by rw [e1]; exact hp) (by rw [e2]; exact hq)

example : (scanLine small 0).map (fun s => (s.start, s.stop, s.avg)) = [(0, 1, [10, 20, 30, 255]), (2, 2, [90, 20, 30, 1])] ∧
    (scanLine small 1).map (fun s => (s.start, s.stop, s.avg)) = [(1, 2, [5, 5, 5, 5]), (3, 3, [100, 5, 5, 5])] := by decide

/-- **C139 (the colour of a segment), partial.** A segment that reaches the end of its line has the average colour of its pixels.

Missing: all others, which have the colour of their first pixel (`C139_average_violated`). -/
theorem C139_average_partial (f : Frame) (y : Nat) : ∀ s ∈ scanLine f y, s.stop + 1 = f.w → Averaged s := by
  unfold scanLine
  by_cases hy : y ≥ f.h
  · rw [if_pos hy]; exact nofun
  · rw [if_neg hy]
    simp only
    have h := scan_all (f := f) (y := y) f.w (Nat.le_refl _)
    generalize (List.range f.w).foldl (scanStep f y) ([], none) = st at *
    cases hs : st.2 with
    | none =>
      simp only
      intro s h1 h2
      have := h.gap hs s h1
      omega
    | some seg =>
      simp only
      have hall : allOf st = st.1 ++ [seg] := by unfold allOf; rw [hs]; rfl
      obtain ⟨k1, k2, q, k3, -⟩ := h.good seg (by rw [hall]; simp)
      intro s h1 h2
      rcases List.mem_append.1 h1 with g | g
      · have hso := h.sorted
        rw [hall, List.pairwise_append] at hso
        have := hso.2.2 s g seg (by simp)
        have := k1.2.1
        omega
      · simp only [List.mem_cons, List.not_mem_nil, or_false] at g
        subst g
        unfold withAverage
        rw [if_neg (by intro e; rw [e] at k3; cases k3)]
        rfl

example : (scanLine ⟨2, 1, [10, 20, 30, 255, 20, 30, 40, 255]⟩ 0).map (·.avg) = [[15, 25, 35, 255]] := by decide

/-- **C139 (the colour of a segment), violated.** The same two pixels followed by a transparent one have the colour of the first
as their average. -/
theorem C139_average_violated : (scanLine ⟨3, 1, [10, 20, 30, 255, 20, 30, 40, 255, 0, 0, 0, 0]⟩ 0).map (·.avg) = [[10, 20, 30, 255]] := by decide

/-- **C139 (comparing pixels).** Two pixels are alike if every channel differs by at most the threshold; the order does not
matter. -/
theorem C139_alike (p q : Pixel) (t : Nat) : (alike p q t = true ↔ Within t p.r q.r ∧ Within t p.g q.g ∧ Within t p.b q.b ∧ Within t p.a q.a) ∧
    alike p q t = alike q p t := by
  have key : ∀ p q : Pixel, alike p q t = true ↔ Within t p.r q.r ∧ Within t p.g q.g ∧ Within t p.b q.b ∧ Within t p.a q.a := by
    intro p q
    unfold alike
    simp only [Bool.and_eq_true, decide_eq_true_eq, near_iff, and_assoc]
  refine ⟨key p q, ?_⟩
  rw [Bool.eq_iff_iff, key p q, key q p]
  unfold Within
  omega

example : alike ⟨0, 0, 10, 20, 30, 40⟩ ⟨5, 5, 40, 20, 0, 70⟩ 30 = true := by decide

end Verif.Props.Inspector
