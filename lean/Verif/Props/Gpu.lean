import Verif.Lemmas.Gpu
import Verif.Props.Blend
/-!
# C128: the GPU compositor
-/
namespace Verif.Props.Gpu
open Verif Verif.Gpu
open Verif.Spec.Gpu (Within place shows over add picture bytes Usual Faithful Size Near Fitting LeavesLayer Nearest Sound)
open Verif.Blend (bind)

/-- A compositor as it is made on a device and after calls that returned. -/
def Reached (dev : Device) (g : Gpu) : Prop := ∃ g0 ops, new dev = .ok g0 ∧ run dev g0 ops = .ok g

theorem target_keep {dev : Device} {g g' : Gpu} {w h : Nat} (e : ensureTarget dev g w h = .ok g') :
    g'.stride = g.stride ∧ g'.heap = g.heap ∧ g'.layer = g.layer := by
  unfold ensureTarget at e
  split at e
  · cases e
    exact ⟨rfl, rfl, rfl⟩
  · obtain ⟨_, _, e⟩ := bind_some e
    cases e
    exact ⟨rfl, rfl, rfl⟩

theorem composite_keep {dev : Device} {g : Gpu} {bs : List Bitmap} {w h : Nat} {m : Bool} {r : Gpu × Option (List Nat)} (hi : Inv g)
    (e : composite dev g bs w h m = .ok r) : Inv r.1 ∧ r.1.layer = g.layer := by
  unfold composite at e
  split at e
  · cases e
    exact ⟨hi, rfl⟩
  · obtain ⟨g1, h1, e⟩ := bind_some e
    obtain ⟨⟨ts, g2⟩, h2, e⟩ := bind_some e
    obtain ⟨pic, _, e⟩ := bind_some e
    obtain ⟨out, _, e⟩ := bind_some e
    have k := target_keep h1
    have t := tiles_keep (show Inv g1 from ⟨k.1.trans hi.1, by rw [k.2.1]; exact hi.2⟩) h2
    cases out with
    | some out =>
      cases e
      exact ⟨⟨t.1.1, t.2.1⟩, t.2.2.1.trans k.2.2⟩
    | none =>
      cases e
      exact ⟨t.1, t.2.2.1.trans k.2.2⟩

theorem layer_keep {dev : Device} {g : Gpu} {bs : List Bitmap} {w h : Nat} {r : Gpu × Bool} (hi : Inv g)
    (e : renderLayer dev g bs w h = .ok r) : Inv r.1 := by
  unfold renderLayer at e
  split at e
  · cases e
    exact hi
  · obtain ⟨g1, h1, e⟩ := bind_some e
    obtain ⟨⟨ts, g2⟩, h2, e⟩ := bind_some e
    obtain ⟨pic, _, e⟩ := bind_some e
    cases e
    have k : g1.stride = g.stride ∧ g1.heap = g.heap := by
      unfold ensureLayer at h1
      split at h1
      · cases h1
        exact ⟨rfl, rfl⟩
      · obtain ⟨_, _, h1⟩ := bind_some h1
        cases h1
        exact ⟨rfl, rfl⟩
    have t := tiles_keep (show Inv g1 from ⟨k.1.trans hi.1, by rw [k.2]; exact hi.2⟩) h2
    exact ⟨t.1.1, t.2.1⟩

theorem encode_keep {dev : Device} {g : Gpu} {l : Surface} {bg : Background} {w h : Nat} {r : Gpu × Option (Nat → Nat → Px)}
    (e : encode dev g l bg w h = .ok r) : r.1.stride = g.stride ∧ r.1.heap = g.heap ∧ r.1.layer = g.layer := by
  unfold encode at e
  split at e
  · cases e
    exact ⟨rfl, rfl, rfl⟩
  · obtain ⟨u, _, e⟩ := bind_some e
    cases bg with
    | colour p =>
      obtain ⟨_, _, e⟩ := bind_some e
      cases e
      exact ⟨rfl, rfl, rfl⟩
    | texture s =>
      obtain ⟨_, _, e⟩ := bind_some e
      obtain ⟨_, _, e⟩ := bind_some e
      obtain ⟨_, _, e⟩ := bind_some e
      cases e
      exact ⟨rfl, rfl, rfl⟩

theorem encode_screen {dev : Device} {g : Gpu} {l : Surface} {bg : Background} {w h : Nat} {r : Gpu × Option (Nat → Nat → Px)}
    (e : encode dev g l bg w h = .ok r) : r.1.screen = g.screen := by
  unfold encode at e
  split at e
  · cases e
    rfl
  · obtain ⟨u, _, e⟩ := bind_some e
    cases bg with
    | colour p =>
      obtain ⟨_, _, e⟩ := bind_some e
      cases e
      rfl
    | texture s =>
      obtain ⟨_, _, e⟩ := bind_some e
      obtain ⟨_, _, e⟩ := bind_some e
      obtain ⟨_, _, e⟩ := bind_some e
      cases e
      rfl

/-- A surface of the right size. -/
theorem matches_some {s : Option Surface} {w h : Nat} (hm : matchesSize s w h = true) : ∃ p, s = some ⟨w, h, p⟩ := by
  unfold matchesSize at hm
  split at hm
  · rename_i s
    obtain ⟨h1, h2⟩ := of_decide_eq_true hm
    obtain ⟨sw, sh, p⟩ := s
    cases h1
    cases h2
    exact ⟨p, rfl⟩
  · exact nomatch hm

theorem over_keep {dev : Device} {g : Gpu} {bg : Background} {w h : Nat} {r : Gpu × Bool}
    (e : presentOver dev g bg w h = .ok r) : r.1.stride = g.stride ∧ r.1.heap = g.heap ∧ r.1.layer = g.layer := by
  unfold presentOver at e
  split at e
  · cases e
    exact ⟨rfl, rfl, rfl⟩
  · split at e
    · cases e
      exact ⟨rfl, rfl, rfl⟩
    · split at e
      · obtain ⟨g1, h1, e⟩ := bind_some e
        obtain ⟨g2, h2, e⟩ := bind_some e
        obtain ⟨r', h3, e⟩ := bind_some e
        have k1 : g1.stride = g.stride ∧ g1.heap = g.heap ∧ g1.layer = g.layer := by
          unfold ensureScreen at h1
          split at h1
          · cases h1
            exact ⟨rfl, rfl, rfl⟩
          · split at h1
            · cases h1
              exact ⟨rfl, rfl, rfl⟩
            · exact nomatch h1
        have k2 := uniforms_keep h2
        have k3 := encode_keep h3
        have k : r'.1.stride = g.stride ∧ r'.1.heap = g.heap ∧ r'.1.layer = g.layer :=
          ⟨k3.1.trans (k2.1.trans k1.1), k3.2.1.trans (k2.2.1.trans k1.2.1), k3.2.2.trans (k2.2.2.1.trans k1.2.2)⟩
        split at e
        · cases e
          exact k
        · cases e
          exact k
      · cases e
        exact ⟨rfl, rfl, rfl⟩

theorem view_keep {dev : Device} {g : Gpu} {bg : Background} {f w h : Nat} {r : Gpu × Option (Nat → Nat → Px)}
    (e : presentToView dev g bg f w h = .ok r) : r.1.stride = g.stride ∧ r.1.heap = g.heap ∧ r.1.layer = g.layer := by
  unfold presentToView at e
  split at e
  · cases e
    exact ⟨rfl, rfl, rfl⟩
  · split at e
    · cases e
      exact ⟨rfl, rfl, rfl⟩
    · split at e
      · obtain ⟨g2, h2, e⟩ := bind_some e
        have k2 := uniforms_keep h2
        have k3 := encode_keep e
        exact ⟨k3.1.trans k2.1, k3.2.1.trans k2.2.1, k3.2.2.trans k2.2.2.1⟩
      · cases e
        exact ⟨rfl, rfl, rfl⟩

theorem step_keep {dev : Device} {g g' : Gpu} {op : Op} (hi : Inv g) (e : step dev g op = .ok g') :
    Inv g' ∧ (LeavesLayer op → g'.layer = g.layer) := by
  cases op with
  | composite bs w h m =>
    obtain ⟨r, hr, e⟩ := bind_some e
    cases e
    have := composite_keep hi hr
    exact ⟨this.1, fun _ => this.2⟩
  | renderLayer bs w h =>
    obtain ⟨r, hr, e⟩ := bind_some e
    cases e
    exact ⟨layer_keep hi hr, fun h => h.elim⟩
  | presentOver bg w h =>
    obtain ⟨r, hr, e⟩ := bind_some e
    cases e
    have := over_keep hr
    exact ⟨⟨this.1.trans hi.1, by rw [this.2.1]; exact hi.2⟩, fun _ => this.2.2⟩
  | presentToView bg f w h =>
    obtain ⟨r, hr, e⟩ := bind_some e
    cases e
    have := view_keep hr
    exact ⟨⟨this.1.trans hi.1, by rw [this.2.1]; exact hi.2⟩, fun _ => this.2.2⟩

theorem run_keep {dev : Device} : ∀ {ops : List Op} {g g' : Gpu}, Inv g → run dev g ops = .ok g' →
    Inv g' ∧ ((∀ op ∈ ops, LeavesLayer op) → g'.layer = g.layer) := by
  intro ops
  induction ops with
  | nil =>
    intro g g' hi e
    cases e
    exact ⟨hi, fun _ => rfl⟩
  | cons op ops ih =>
    intro g g' hi e
    rw [run] at e
    obtain ⟨g1, h1, e⟩ := bind_some e
    have k1 := step_keep hi h1
    have k2 := ih k1.1 e
    exact ⟨k2.1, fun h => (k2.2 (fun o ho => h o (List.mem_cons_of_mem _ ho))).trans (k1.2 (h op List.mem_cons_self))⟩

theorem reached_inv {dev : Device} (hd : Usual dev) {g : Gpu} (h : Reached dev g) : Inv g := by
  obtain ⟨g0, ops, h0, hr⟩ := h
  refine (run_keep ?_ hr).1
  unfold new roundUp at h0
  rw [hd.2.2] at h0
  cases h0
  exact ⟨rfl, List.nodup_nil, fun _ h => absurd h List.not_mem_nil⟩

theorem target_ok {dev : Device} (hd : Usual dev) {g : Gpu} {w h : Nat} (hs : Size w h) : ∃ g', ensureTarget dev g w h = .ok g' := by
  unfold ensureTarget
  split
  · exact ⟨_, rfl⟩
  · rw [bind_of (surface_ok hd hs)]
    exact ⟨_, rfl⟩

/-- **C128.**  Whatever the compositor did before, composing bitmaps of a usual size and number onto a frame gives the bytes of
their picture, row by row: at every pixel the bitmaps that cover it, in order, each at its own pixel, on transparent ground — with
nothing of earlier frames, of other bitmaps' textures or of the padding of rows in between.  A failure to read the frame is an error, and
so is an empty frame.  `_partial`: for bitmaps of at most 8192 pixels on a side, not too far away, and not more than `2 ^ 20` of
them; see the `_violated` theorems. -/
theorem C128_composite_partial {dev : Device} (hd : Usual dev) (hf : Faithful dev.f32) {g : Gpu} (hr : Reached dev g) {bs : List Bitmap}
    {w h : Nat} (hs : Size w h) (hb : ∀ b ∈ bs, Fitting b) (hn : bs.length ≤ 2 ^ 20) :
    (∃ g', composite dev g bs w h true = .ok (g', some (bytes w h (picture dev.store bs)))) ∧
      (∃ g', composite dev g bs w h false = .ok (g', none)) ∧
      (∀ m, composite dev g bs 0 h m = .ok (g, none) ∧ composite dev g bs w 0 m = .ok (g, none)) := by
  have hi := reached_inv hd hr
  obtain ⟨g1, h1⟩ := target_ok hd (g := g) hs
  have k := target_keep h1
  obtain ⟨ts, g2, h2, h3⟩ := tiles_draw hd hf (show Inv g1 from ⟨k.1.trans hi.1, by rw [k.2.1]; exact hi.2⟩) hs hb hn
  have hne : ¬ (w = 0 ∨ h = 0) := by
    have := hs.1
    have := hs.2.1
    omega
  refine ⟨?_, ?_, fun m => ⟨?_, ?_⟩⟩
  · unfold composite
    rw [if_neg hne, bind_of h1, bind_of h2, bind_of h3, bind_of (read_spec hd (s := ⟨w, h, picture dev.store bs⟩) hs)]
    exact ⟨_, rfl⟩
  · unfold composite
    rw [if_neg hne, bind_of h1, bind_of h2, bind_of h3, bind_of (read_none hd (s := ⟨w, h, picture dev.store bs⟩) hs)]
    exact ⟨_, rfl⟩
  · unfold composite
    rw [if_pos (.inl rfl)]
  · unfold composite
    rw [if_pos (.inr rfl)]

/-- The colour of a pixel. -/
def colourOf (p : Px) : Colour := ⟨(p.r : Rat) / 255, (p.g : Rat) / 255, (p.b : Rat) / 255, (p.a : Rat) / 255⟩

theorem count_ok (bg : Background) : 1 ≤ quadCount bg ∧ quadCount bg ≤ 2 := by
  cases bg <;> exact ⟨by simp only [quadCount]; omega, by simp only [quadCount]; omega⟩

theorem encode_ok {dev : Device} (hd : Usual dev) {g : Gpu} (hs : g.stride = 256) {l : Surface} {bg : Background} {u : Uniforms}
    (hu : g.uniforms = some u) (hc : quadCount bg ≤ u.capacity) :
    (∀ p, bg = .colour p → ∃ g', encode dev g l bg l.w l.h = .ok (g', some (drawQuad dev.store fullFrame l.w l.h (texelPx l.pixels) l.w l.h (clear p)))) ∧
    (∀ s, bg = .texture s → ∃ g', encode dev g l bg l.w l.h = .ok (g', some (drawQuad dev.store fullFrame l.w l.h (texelPx l.pixels) l.w l.h
      (drawQuad dev.store fullFrame s.w s.h (texelPx s.pixels) l.w l.h (clear ⟨0, 0, 0, 0⟩))))) := by
  have hw : writeQuads (List.replicate (quadCount bg) fullFrame) u =
      .ok ⟨u.capacity, List.replicate (quadCount bg) fullFrame ++ u.quads.drop (quadCount bg)⟩ := by
    unfold writeQuads
    rw [List.length_replicate, if_pos hc]
  constructor
  · intro p hp
    subst hp
    unfold encode
    rw [hu]
    dsimp only
    rw [bind_of hw, hs]
    have := quad_at hd (u := ⟨u.capacity, List.replicate (quadCount (.colour p)) fullFrame ++ u.quads.drop (quadCount (.colour p))⟩)
      (k := 0) (q := fullFrame) hc rfl
    rw [Nat.zero_mul] at this
    rw [bind_of this]
    exact ⟨_, rfl⟩
  · intro s hp
    subst hp
    unfold encode
    rw [hu]
    dsimp only
    rw [bind_of hw, hs]
    have h0 := quad_at hd (u := ⟨u.capacity, List.replicate (quadCount (.texture s)) fullFrame ++ u.quads.drop (quadCount (.texture s))⟩)
      (k := 0) (q := fullFrame) (Nat.lt_of_lt_of_le (count_ok _).1 hc) rfl
    have h1 := quad_at hd (u := ⟨u.capacity, List.replicate (quadCount (.texture s)) fullFrame ++ u.quads.drop (quadCount (.texture s))⟩)
      (k := 1) (q := fullFrame) hc rfl
    rw [Nat.zero_mul] at h0
    rw [Nat.one_mul] at h1
    rw [bind_of h0, bind_of (show u32 (0 + 256) = .ok 256 from rfl), bind_of h1]
    exact ⟨_, rfl⟩

theorem draw_full {store : Rat → Nat} {pixels : Nat → Nat → Px} {w h : Nat} {pic : Nat → Nat → Px} {x y : Nat} (hx : x < w) (hy : y < h) :
    drawQuad store fullFrame w h (texelPx pixels) w h pic x y = over store (colourOf (pixels x y)) (pic x y) := by
  unfold drawQuad
  rw [hit_full hx hy]
  rfl

/-- **C128.**  A layer once drawn stays as it is until a layer is drawn again, whatever else the compositor composes or
presents and whether those calls succeed: read back it gives the bytes of its picture, and presented over a colour or over a texture of its size it
shows, at every pixel, the layer over the background.  Presenting at any other size is an error and changes nothing.
`_partial`: as above. -/
theorem C128_layer_partial {dev : Device} (hd : Usual dev) (hf : Faithful dev.f32) {g : Gpu} (hr : Reached dev g) {bs : List Bitmap}
    {w h : Nat} (hs : Size w h) (hb : ∀ b ∈ bs, Fitting b) (hn : bs.length ≤ 2 ^ 20) :
    ∃ g1, renderLayer dev g bs w h = .ok (g1, true) ∧
      ∀ later g2, (∀ op ∈ later, LeavesLayer op) → run dev g1 later = .ok g2 →
        layerToBytes dev g2 true = .ok (some (bytes w h (picture dev.store bs))) ∧
        (∀ p f, ∃ g3 pic, presentToView dev g2 (.colour p) f w h = .ok (g3, some pic) ∧
          ∀ x y, x < w → y < h → pic x y = over dev.store (colourOf (picture dev.store bs x y)) p) ∧
        (∀ under f, ∃ g3 pic, presentToView dev g2 (.texture ⟨w, h, under⟩) f w h = .ok (g3, some pic) ∧
          ∀ x y, x < w → y < h → pic x y =
            over dev.store (colourOf (picture dev.store bs x y)) (over dev.store (colourOf (under x y)) ⟨0, 0, 0, 0⟩)) ∧
        (∀ bg f w' h', (w', h') ≠ (w, h) →
          presentToView dev g2 bg f w' h' = .ok (g2, none) ∧ presentOver dev g2 bg w' h' = .ok (g2, false)) ∧
        ∀ p, ∃ g3 pic, presentOver dev g2 (.colour p) w h = .ok (g3, true) ∧ g3.screen = some ⟨w, h, pic⟩ ∧
          ∀ x y, x < w → y < h → pic x y = over dev.store (colourOf (picture dev.store bs x y)) p := by
  have hi := reached_inv hd hr
  have hne : ¬ (w = 0 ∨ h = 0) := by
    have := hs.1
    have := hs.2.1
    omega
  have hl : ∃ g1 p, ensureLayer dev g w h = .ok g1 ∧ g1.stride = g.stride ∧ g1.heap = g.heap ∧ g1.layer = some ⟨w, h, p⟩ := by
    unfold ensureLayer
    split
    · rename_i hm
      obtain ⟨p, hp⟩ := matches_some hm
      exact ⟨g, p, rfl, rfl, rfl, hp⟩
    · rw [bind_of (surface_ok hd hs)]
      exact ⟨_, _, rfl, rfl, rfl, rfl⟩
  obtain ⟨g1, p1, h1, k1, k2, k3⟩ := hl
  have hi1 : Inv g1 := ⟨k1.trans hi.1, by rw [k2]; exact hi.2⟩
  obtain ⟨ts, g2, h2, h3⟩ := tiles_draw hd hf hi1 hs hb hn
  have hren : renderLayer dev g bs w h =
      .ok ({ g2 with heap := release g2.heap ts, layer := some ⟨w, h, picture dev.store bs⟩ }, true) := by
    unfold renderLayer
    rw [if_neg hne, bind_of h1, bind_of h2, bind_of h3]
    dsimp only
    rw [(tiles_keep hi1 h2).2.2.1, k3]
    rfl
  refine ⟨_, hren, ?_⟩
  intro later g3 hla hrun
  have hinv := layer_keep hi hren
  obtain ⟨hi3, hlay⟩ := run_keep hinv hrun
  have hlay := hlay hla
  dsimp only at hlay
  have view : ∀ bg f, presentToView dev g3 bg f w h = bind (ensureUniforms dev g3 (quadCount bg)) fun g =>
      encode dev { g with formats := if f ∈ g.formats then g.formats else f :: g.formats } ⟨w, h, picture dev.store bs⟩ bg w h := by
    intro bg f
    unfold presentToView
    rw [if_neg hne, hlay]
    dsimp only
    rw [if_pos ⟨rfl, rfl⟩]
  have room : ∀ bg, ∃ g4, ensureUniforms dev g3 (quadCount bg) = .ok g4 ∧ g4.stride = 256 ∧
      ∃ u, g4.uniforms = some u ∧ quadCount bg ≤ u.capacity := by
    intro bg
    obtain ⟨g4, h4, hu⟩ := uniforms_ok hd hi3.1 (n := quadCount bg) (Nat.le_trans (count_ok bg).2 (by decide))
    exact ⟨g4, h4, (uniforms_keep h4).1.trans hi3.1, hu (count_ok bg).1⟩
  refine ⟨?_, ?_, ?_, ?_, ?_⟩
  · unfold layerToBytes
    rw [hlay]
    exact read_spec hd (s := ⟨w, h, picture dev.store bs⟩) hs
  · intro p f
    obtain ⟨g4, h4, hs4, u, hu, hc⟩ := room (.colour p)
    obtain ⟨g5, h5⟩ := (encode_ok hd (g := { g4 with formats := if f ∈ g4.formats then g4.formats else f :: g4.formats }) hs4
      (l := ⟨w, h, picture dev.store bs⟩) hu hc).1 p rfl
    refine ⟨g5, _, by rw [view, bind_of h4]; exact h5, ?_⟩
    intro x y hx hy
    exact draw_full hx hy
  · intro under f
    obtain ⟨g4, h4, hs4, u, hu, hc⟩ := room (.texture ⟨w, h, under⟩)
    obtain ⟨g5, h5⟩ := (encode_ok hd (g := { g4 with formats := if f ∈ g4.formats then g4.formats else f :: g4.formats }) hs4
      (l := ⟨w, h, picture dev.store bs⟩) hu hc).2 _ rfl
    refine ⟨g5, _, by rw [view, bind_of h4]; exact h5, ?_⟩
    intro x y hx hy
    rw [draw_full hx hy, draw_full hx hy]
    rfl
  · intro bg f w' h' hne'
    have hno : ¬ (w = w' ∧ h = h') := by
      rintro ⟨rfl, rfl⟩
      exact hne' rfl
    constructor
    · unfold presentToView
      split
      · rfl
      · rw [hlay]
        dsimp only
        rw [if_neg hno]
    · unfold presentOver
      split
      · rfl
      · rw [hlay]
        dsimp only
        rw [if_neg hno]
  · intro p
    have hscr : ∃ g4 q, ensureScreen dev g3 w h = .ok g4 ∧ g4.stride = g3.stride ∧ g4.screen = some ⟨w, h, q⟩ := by
      unfold ensureScreen
      split
      · rename_i hm
        obtain ⟨q, hq⟩ := matches_some hm
        exact ⟨g3, q, rfl, rfl, hq⟩
      · obtain ⟨s1, s2, s3, s4⟩ := hs
        unfold sideOk
        rw [if_pos (decide_eq_true ⟨s1, s2, by rw [hd.1]; exact s3, by rw [hd.1]; exact s4⟩)]
        exact ⟨_, _, rfl, rfl, rfl⟩
    obtain ⟨g4, q4, h4, k4, k5⟩ := hscr
    obtain ⟨g5, h5, hu⟩ := uniforms_ok hd (k4.trans hi3.1) (n := quadCount (.colour p)) (by show 1 ≤ 2 ^ 20; decide)
    obtain ⟨u, hu, hc⟩ := hu (Nat.le_refl 1)
    obtain ⟨g6, h6⟩ := (encode_ok hd ((uniforms_keep h5).1.trans (k4.trans hi3.1))
      (l := ⟨w, h, picture dev.store bs⟩) hu hc).1 p rfl
    refine ⟨{ g6 with screen := some ⟨w, h, drawQuad dev.store fullFrame w h (texelPx (picture dev.store bs)) w h (clear p)⟩ },
      _, ?_, rfl, ?_⟩
    · unfold presentOver
      rw [if_neg hne, hlay]
      dsimp only
      rw [if_pos ⟨rfl, rfl⟩, bind_of h4, bind_of h5, bind_of h6]
      dsimp only
      rw [encode_screen h6, (uniforms_keep h5).2.2.2.1, k5]
      rfl
    · intro x y hx hy
      exact draw_full hx hy


/-! ## Reuse of textures -/

/-- Tiles of the sizes and formats of bitmaps. -/
def Sized (f : Rat → Rat) (fw fh : Nat) : List Bitmap → List Tile → Prop
  | [], [] => True
  | b :: bs, t :: ts => (∃ d, describe f fw fh b = .ok d ∧ t.fmt = d.fmt ∧ t.w = d.w ∧ t.h = d.h) ∧ Sized f fw fh bs ts
  | _, _ => False

theorem loaded_sized {f : Rat → Rat} {fw fh : Nat} {tx : List (List Nat)} : ∀ {bs : List Bitmap} {ts : List Tile} {qs : List Quad},
    Loaded f fw fh tx bs ts qs → Sized f fw fh bs ts
  | [], [], [], _ => trivial
  | _ :: _, _ :: _, _ :: _, h =>
    let ⟨⟨d, a, _, b, c, e, _⟩, h'⟩ := h
    ⟨⟨d, a, b, c, e⟩, loaded_sized h'⟩
  | [], [], _ :: _, h => h.elim
  | [], _ :: _, [], h => h.elim
  | [], _ :: _, _ :: _, h => h.elim
  | _ :: _, [], [], h => h.elim
  | _ :: _, [], _ :: _, h => h.elim
  | _ :: _, _ :: _, [], h => h.elim

theorem prepare_reuse {dev : Device} {fw fh : Nat} : ∀ {bs : List Bitmap} {ts0 ts : List Tile} {qs : List Quad} {hp hp' : Heap},
    Sized dev.f32 fw fh bs ts0 →
    (∀ fmt w h, ts0.countP (Tile.fits fmt w h) ≤ hp.free.countP (Tile.fits fmt w h)) →
    prepare dev fw fh bs hp = .ok (ts, qs, hp') → hp'.textures.length = hp.textures.length := by
  intro bs
  induction bs with
  | nil =>
    intro ts0 ts qs hp hp' _ _ h
    cases h
    rfl
  | cons b bs ih =>
    intro ts0 ts qs hp hp' hs hc h
    cases ts0 with
    | nil => exact hs.elim
    | cons t0 ts0 =>
      obtain ⟨⟨d, hd, e1, e2, e3⟩, hs⟩ := hs
      rw [prepare, bind_of hd] at h
      obtain ⟨⟨t, h1⟩, ha, h⟩ := bind_some h
      obtain ⟨h2, hu, h⟩ := bind_some h
      obtain ⟨⟨ts', qs', h3⟩, hr, h⟩ := bind_some h
      cases h
      have hfit : Tile.fits d.fmt d.w d.h t0 = true := decide_eq_true ⟨e1, e2, e3⟩
      have hpos := hc d.fmt d.w d.h
      rw [List.countP_cons_of_pos hfit] at hpos
      unfold acquire at ha
      cases hfind : hp.free.find? (Tile.fits d.fmt d.w d.h) with
      | none =>
        have : hp.free.countP (Tile.fits d.fmt d.w d.h) = 0 := by
          rw [List.countP_eq_zero]
          exact List.find?_eq_none.1 hfind
        omega
      | some s =>
        rw [hfind] at ha
        cases ha
        have hst := List.find?_some hfind
        have hkey : t.fmt = d.fmt ∧ t.w = d.w ∧ t.h = d.h := of_decide_eq_true hst
        have hperm := perm_erase hfind
        have hlen : h2.textures.length = hp.textures.length ∧ h2.free = hp.free.eraseP (Tile.fits d.fmt d.w d.h) := by
          unfold upload at hu
          split at hu
          · cases hu
            exact ⟨List.length_set, rfl⟩
          · exact nomatch hu
        rw [← hlen.1]
        refine ih hs ?_ hr
        intro fmt w h
        have h0 := hc fmt w h
        rw [← hperm.countP_eq, List.countP_cons, List.countP_cons] at h0
        rw [hlen.2]
        have : Tile.fits fmt w h t0 = Tile.fits fmt w h t := by
          unfold Tile.fits
          rw [e1, e2, e3, hkey.1, hkey.2.1, hkey.2.2]
        rw [this] at h0
        omega

/-- **C128.**  Composing bitmaps of the same sizes again makes no texture: those of the first time are used. -/
theorem C128_reuse {dev : Device} (hd : Usual dev) {g g1 g2 : Gpu} (hr : Reached dev g) {bs : List Bitmap} {w h : Nat} {m : Bool}
    {out : List Nat} {out' : Option (List Nat)} (h1 : composite dev g bs w h true = .ok (g1, some out))
    (h2 : composite dev g1 bs w h m = .ok (g2, out')) : g2.heap.textures.length = g1.heap.textures.length := by
  have hi := reached_inv hd hr
  have parts : ∀ {g g' : Gpu} {m : Bool} {o : Option (List Nat)}, Inv g → composite dev g bs w h m = .ok (g', o) → ¬ (w = 0 ∨ h = 0) →
      ∃ ts qs hp, prepare dev w h bs g.heap = .ok (ts, qs, hp) ∧ g'.heap.textures = hp.textures ∧
        (o.isSome = true → g'.heap.free = ts.reverse ++ hp.free) := by
    intro g g' m o _ e hne
    unfold composite at e
    rw [if_neg hne] at e
    obtain ⟨a1, e1, e⟩ := bind_some e
    obtain ⟨⟨ts, a2⟩, e2, e⟩ := bind_some e
    obtain ⟨pic, _, e⟩ := bind_some e
    obtain ⟨out, _, e⟩ := bind_some e
    unfold prepareTiles at e2
    obtain ⟨a3, e3, e2⟩ := bind_some e2
    obtain ⟨⟨ts', qs, hp⟩, e4, e2⟩ := bind_some e2
    obtain ⟨a4, e5, e2⟩ := bind_some e2
    cases e2
    have k1 := target_keep e1
    have k3 := uniforms_keep e3
    have k4 := write_keep e5
    dsimp only at k4
    rw [k3.2.1, k1.2.1] at e4
    refine ⟨ts', qs, hp, e4, ?_, ?_⟩
    · cases out with
      | some out =>
        cases e
        show (release a2.heap ts').textures = _
        unfold release
        rw [k4.2.1]
      | none =>
        cases e
        rw [k4.2.1]
    · intro ho
      cases out with
      | some out =>
        cases e
        show (release a2.heap ts').free = _
        unfold release
        rw [k4.2.1]
      | none =>
        cases e
        exact nomatch ho
  have hne : ¬ (w = 0 ∨ h = 0) := by
    intro h0
    unfold composite at h1
    rw [if_pos h0] at h1
    exact nomatch h1
  obtain ⟨ts, qs, hp, p1, p2, p3⟩ := parts hi h1 hne
  obtain ⟨ts', qs', hp', q1, q2, _⟩ := parts (composite_keep hi h1).1 h2 hne
  obtain ⟨_, _, _, _, _, _, hl⟩ := prepare_spec hi.2 p1
  rw [q2]
  refine prepare_reuse (loaded_sized hl) ?_ q1
  intro fmt w h
  rw [p3 rfl, List.countP_append, List.countP_reverse]
  exact Nat.le_add_right _ _


/-! ## The software backend -/

open Verif.Spec.Blend (scale premultiply Covers Moderate flat)

/-- Two pixels differ by at most `k` in every channel. -/
def Close (k : Nat) (d : Spec.Blend.Px) (e : Px) : Prop :=
  (d.r ≤ e.r + k ∧ e.r ≤ d.r + k) ∧ (d.g ≤ e.g + k ∧ e.g ≤ d.g + k) ∧ (d.b ≤ e.b + k ∧ e.b ≤ d.b + k) ∧ (d.a ≤ e.a + k ∧ e.a ≤ d.a + k)

theorem scale_near (a b : Nat) : (scale a b : Rat) - 1 / 2 ≤ (a : Rat) * b / 255 ∧ (a : Rat) * b / 255 ≤ scale a b + 1 / 2 := by
  unfold scale
  have h1 := Nat.div_mul_le_self (2 * (a * b) + 255) 510
  have h2 := Nat.lt_div_mul_add (a := 2 * (a * b) + 255) (b := 510) (by omega)
  generalize (2 * (a * b) + 255) / 510 = q at *
  have h1' : ((q * 510 : Nat) : Rat) ≤ ((2 * (a * b) + 255 : Nat) : Rat) := Rat.natCast_le_natCast.2 h1
  have h2' : ((2 * (a * b) + 255 : Nat) : Rat) < ((q * 510 + 510 : Nat) : Rat) := Rat.natCast_lt_natCast.2 h2
  simp only [Rat.natCast_add, Rat.natCast_mul] at h1' h2'
  have e2 : ((2 : Nat) : Rat) = 2 := rfl
  have e255 : ((255 : Nat) : Rat) = 255 := rfl
  have e510 : ((510 : Nat) : Rat) = 510 := rfl
  rw [e2, e255, e510] at *
  constructor <;> grind

/-- One channel of the two backends. -/
theorem channel_close {store : Rat → Nat} (hs : Nearest store) {s : Rat} {a : Rat} {src m d e k : Nat} (h0 : 0 ≤ s) (h1 : s ≤ a)
    (h2 : a ≤ 1) (hm : m ≤ 255) (he : e ≤ 255) (hsrc : (src : Rat) - 1 ≤ s * 255 ∧ s * 255 ≤ src + 1)
    (hmm : (m : Rat) - 1 / 2 ≤ a * 255 ∧ a * 255 ≤ m + 1 / 2) (hk : d ≤ e + k ∧ e ≤ d + k) :
    store (s + (e : Rat) / 255 * (1 - a)) ≤ 255 ∧
      src + scale d (255 - m) ≤ store (s + (e : Rat) / 255 * (1 - a)) + (k + 2) ∧
      store (s + (e : Rat) / 255 * (1 - a)) ≤ src + scale d (255 - m) + (k + 2) := by
  have e0 : (0 : Rat) ≤ e := Rat.natCast_nonneg
  have e1 : (e : Rat) ≤ 255 := by simpa using Rat.natCast_le_natCast.2 he
  have m0 : (0 : Rat) ≤ m := Rat.natCast_nonneg
  have m1 : (m : Rat) ≤ 255 := by simpa using Rat.natCast_le_natCast.2 hm
  have p1 : 0 ≤ (e : Rat) * (1 - a) := Rat.mul_nonneg e0 (by grind)
  have p2 : 0 ≤ (255 - (e : Rat)) * (1 - a) := Rat.mul_nonneg (by grind) (by grind)
  obtain ⟨g1, g2, g3⟩ := hs (s + (e : Rat) / 255 * (1 - a)) (by grind) (by grind)
  refine ⟨g1, ?_⟩
  generalize store (s + (e : Rat) / 255 * (1 - a)) = G at *
  obtain ⟨t1, t2⟩ := scale_near d (255 - m)
  generalize scale d (255 - m) = T at *
  have hsub : ((255 - m : Nat) : Rat) = 255 - m := by
    have : ((255 - m : Nat) : Rat) + m = 255 := by
      rw [← Rat.natCast_add, Nat.sub_add_cancel hm]
      rfl
    grind
  rw [hsub] at t1 t2
  have k1 : (d : Rat) ≤ e + k := by
    have := Rat.natCast_le_natCast.2 hk.1
    rwa [Rat.natCast_add] at this
  have k2 : (e : Rat) ≤ d + k := by
    have := Rat.natCast_le_natCast.2 hk.2
    rwa [Rat.natCast_add] at this
  have k0 : (0 : Rat) ≤ k := Rat.natCast_nonneg
  have q1 : 0 ≤ ((e : Rat) + k - d) * (255 - m) := Rat.mul_nonneg (by grind) (by grind)
  have q2 : 0 ≤ ((d : Rat) + k - e) * (255 - m) := Rat.mul_nonneg (by grind) (by grind)
  have q3 : 0 ≤ (k : Rat) * m := Rat.mul_nonneg k0 m0
  have r1 : 0 ≤ (e : Rat) * (a * 255 - m + 1 / 2) := Rat.mul_nonneg e0 (by grind)
  have r2 : 0 ≤ (e : Rat) * (m + 1 / 2 - a * 255) := Rat.mul_nonneg e0 (by grind)
  have c1 : (src : Rat) + T < G + (k + 3) := by grind
  have c2 : (G : Rat) < src + T + (k + 3) := by grind
  constructor
  · have : ((src + T : Nat) : Rat) < ((G + (k + 3) : Nat) : Rat) := by
      simp only [Rat.natCast_add]
      exact c1
    have := Rat.natCast_lt_natCast.1 this
    omega
  · have : ((G : Nat) : Rat) < ((src + T + (k + 3) : Nat) : Rat) := by
      simp only [Rat.natCast_add]
      exact c2
    have := Rat.natCast_lt_natCast.1 this
    omega


/-- Every channel is a byte. -/
def Bytes (e : Px) : Prop := e.r ≤ 255 ∧ e.g ≤ 255 ∧ e.b ≤ 255 ∧ e.a ≤ 255

theorem byte_unit {n : Nat} (h : n ≤ 255) : (0 : Rat) ≤ n ∧ (n : Rat) ≤ 255 :=
  ⟨Rat.natCast_nonneg, by simpa using Rat.natCast_le_natCast.2 h⟩

theorem source_near {r a c : Nat} (hc : c ≤ 255) :
    (scale (scale r a) c : Rat) - 1 ≤ (r : Rat) / 255 * ((a : Rat) / 255 * ((c : Rat) / 255)) * 255 ∧
      (r : Rat) / 255 * ((a : Rat) / 255 * ((c : Rat) / 255)) * 255 ≤ scale (scale r a) c + 1 := by
  obtain ⟨a1, a2⟩ := scale_near r a
  obtain ⟨b1, b2⟩ := scale_near (scale r a) c
  generalize scale (scale r a) c = S at *
  generalize scale r a = X at *
  obtain ⟨c0, c1⟩ := byte_unit hc
  have q1 : 0 ≤ ((r : Rat) * a / 255 - (X - 1 / 2)) * c := Rat.mul_nonneg (by grind) c0
  have q2 : 0 ≤ ((X : Rat) + 1 / 2 - (r : Rat) * a / 255) * c := Rat.mul_nonneg (by grind) c0
  have e : (r : Rat) / 255 * ((a : Rat) / 255 * ((c : Rat) / 255)) * 255 = (r : Rat) * a / 255 * c / 255 := by grind
  rw [e]
  generalize (r : Rat) * a / 255 = Y at *
  constructor <;> grind

theorem coverage_close {store : Rat → Nat} (hs : Nearest store) {r g b a c k : Nat} {d : Spec.Blend.Px} {e : Px} (hr : r ≤ 255)
    (hg : g ≤ 255) (hb : b ≤ 255) (ha : a ≤ 255) (hc : c ≤ 255) (he : Bytes e) (hk : Close k d e) {s : Colour}
    (hal : s.a = (a : Rat) / 255 * ((c : Rat) / 255)) (h1 : s.r = (r : Rat) / 255 * s.a) (h2 : s.g = (g : Rat) / 255 * s.a)
    (h3 : s.b = (b : Rat) / 255 * s.a) :
    Bytes (over store s e) ∧ Close (k + 2) (Spec.Blend.over (premultiply r g b a) c d) (over store s e) := by
  obtain ⟨a0, a1⟩ := byte_unit ha
  obtain ⟨c0, c1⟩ := byte_unit hc
  have m0 : 0 ≤ (a : Rat) * c := Rat.mul_nonneg a0 c0
  have m1 : 0 ≤ (255 - (a : Rat)) * (255 - c) := Rat.mul_nonneg (by grind) (by grind)
  have m2 : 0 ≤ (255 - (a : Rat)) * c := Rat.mul_nonneg (by grind) c0
  have s0 : 0 ≤ s.a := by rw [hal]; grind
  have s1 : s.a ≤ 1 := by rw [hal]; grind
  have hm := scale_near a c
  have hm' : (scale a c : Rat) - 1 / 2 ≤ s.a * 255 ∧ s.a * 255 ≤ scale a c + 1 / 2 := by rw [hal]; grind
  have mle : scale a c ≤ 255 := Nat.le_trans (Verif.Blend.scale_le ha) hc
  have chan : ∀ {q : Nat} {sc : Rat} {dd ee : Nat}, q ≤ 255 → sc = (q : Rat) / 255 * s.a → ee ≤ 255 → dd ≤ ee + k ∧ ee ≤ dd + k →
      store (sc + (ee : Rat) / 255 * (1 - s.a)) ≤ 255 ∧
      scale (scale q a) c + scale dd (255 - scale a c) ≤ store (sc + (ee : Rat) / 255 * (1 - s.a)) + (k + 2) ∧
      store (sc + (ee : Rat) / 255 * (1 - s.a)) ≤ scale (scale q a) c + scale dd (255 - scale a c) + (k + 2) := by
    intro q sc dd ee hq hsc hee hkk
    obtain ⟨q0, q1⟩ := byte_unit hq
    have n1 : 0 ≤ (q : Rat) * s.a := Rat.mul_nonneg q0 s0
    have n2 : 0 ≤ (255 - (q : Rat)) * s.a := Rat.mul_nonneg (by grind) s0
    refine channel_close hs (by rw [hsc]; grind) (by rw [hsc]; grind) s1 mle hee ?_ hm' hkk
    rw [hsc, hal]
    exact source_near hc
  obtain ⟨x1, x2, x3⟩ := chan hr h1 he.1 hk.1
  obtain ⟨y1, y2, y3⟩ := chan hg h2 he.2.1 hk.2.1
  obtain ⟨z1, z2, z3⟩ := chan hb h3 he.2.2.1 hk.2.2.1
  obtain ⟨w1, w2, w3⟩ := channel_close (e := e.a) (d := d.a) hs s0 (Rat.le_refl) s1 mle he.2.2.2 (src := scale a c) (by grind) hm' hk.2.2.2
  exact ⟨⟨x1, y1, z1, w1⟩, ⟨x2, x3⟩, ⟨y2, y3⟩, ⟨z2, z3⟩, w2, w3⟩

theorem rgba_close {store : Rat → Nat} (hs : Nearest store) {q : Spec.Blend.Px} {k : Nat} {d : Spec.Blend.Px} {e : Px}
    (hq : q.Premultiplied) (he : Bytes e) (hk : Close k d e) :
    Bytes (over store ⟨(q.r : Rat) / 255, (q.g : Rat) / 255, (q.b : Rat) / 255, (q.a : Rat) / 255⟩ e) ∧
      Close (k + 2) (Spec.Blend.over q 255 d) (over store ⟨(q.r : Rat) / 255, (q.g : Rat) / 255, (q.b : Rat) / 255, (q.a : Rat) / 255⟩ e) := by
  obtain ⟨q1, q2, q3, q4⟩ := hq
  obtain ⟨a0, a1⟩ := byte_unit q4
  rw [Verif.Blend.over_full]
  have chan : ∀ {n : Nat} {dd ee : Nat}, n ≤ q.a → ee ≤ 255 → dd ≤ ee + k ∧ ee ≤ dd + k →
      store ((n : Rat) / 255 + (ee : Rat) / 255 * (1 - (q.a : Rat) / 255)) ≤ 255 ∧
      n + scale dd (255 - q.a) ≤ store ((n : Rat) / 255 + (ee : Rat) / 255 * (1 - (q.a : Rat) / 255)) + (k + 2) ∧
      store ((n : Rat) / 255 + (ee : Rat) / 255 * (1 - (q.a : Rat) / 255)) ≤ n + scale dd (255 - q.a) + (k + 2) := by
    intro n dd ee hn hee hkk
    have n0 : (0 : Rat) ≤ n := Rat.natCast_nonneg
    have n1 : (n : Rat) ≤ q.a := Rat.natCast_le_natCast.2 hn
    exact channel_close hs (by grind) (by grind) (by grind) q4 hee (by grind) (by grind) hkk
  obtain ⟨x1, x2, x3⟩ := chan q1 he.1 hk.1
  obtain ⟨y1, y2, y3⟩ := chan q2 he.2.1 hk.2.1
  obtain ⟨z1, z2, z3⟩ := chan q3 he.2.2.1 hk.2.2.1
  obtain ⟨w1, w2, w3⟩ := chan (Nat.le_refl _) he.2.2.2 hk.2.2.2
  exact ⟨⟨x1, y1, z1, w1⟩, ⟨x2, x3⟩, ⟨y2, y3⟩, ⟨z2, z3⟩, w2, w3⟩

/-- Bytes of pixels as pixels. -/
theorem pixels_of : ∀ {n : Nat} {data : List Nat}, data.length = n * 4 → ∃ S, flat S = data ∧ S.length = n ∧
    ∀ i, i < n → S[i]? = some ⟨data.getD (4 * i) 0, data.getD (4 * i + 1) 0, data.getD (4 * i + 2) 0, data.getD (4 * i + 3) 0⟩ := by
  intro n
  induction n with
  | zero =>
    intro data h
    have : data = [] := List.length_eq_zero_iff.1 (by omega)
    subst this
    exact ⟨[], rfl, rfl, fun i hi => absurd hi (by omega)⟩
  | succ n ih =>
    intro data h
    match data, h with
    | a :: b :: c :: d :: rest, h =>
      obtain ⟨S, h1, h2, h3⟩ := ih (data := rest) (by simp only [List.length_cons] at h; omega)
      refine ⟨⟨a, b, c, d⟩ :: S, by rw [Verif.Blend.flat_cons, h1], by rw [List.length_cons, h2], ?_⟩
      intro i hi
      cases i with
      | zero => rfl
      | succ i =>
        rw [List.getElem?_cons_succ, h3 i (by omega)]
        rfl
    | [], h => exact absurd h (by simp only [List.length_nil]; omega)
    | [_], h => exact absurd h (by simp only [List.length_cons, List.length_nil]; omega)
    | [_, _], h => exact absurd h (by simp only [List.length_cons, List.length_nil]; omega)
    | [_, _, _], h => exact absurd h (by simp only [List.length_cons, List.length_nil]; omega)

theorem covers_within {w h : Nat} {x y : Int} {px py : Nat} : Within w h x y px py ↔ Covers w h x y px py (place w x y px py) := by
  unfold Within Covers place
  constructor
  · rintro ⟨a, b, c, d⟩
    exact ⟨((px : Int) - x).toNat, ((py : Int) - y).toNat, by omega, by omega, by omega, by omega, rfl⟩
  · rintro ⟨tx, ty, a, b, c, d, _⟩
    omega

theorem covers_only {w h : Nat} {x y : Int} {px py i : Nat} (hc : Covers w h x y px py i) : Within w h x y px py := by
  obtain ⟨tx, ty, a, b, c, d, _⟩ := hc
  unfold Within
  omega

theorem place_lt {w h : Nat} {x y : Int} {px py : Nat} (hw : Within w h x y px py) : place w x y px py < w * h := by
  obtain ⟨a, b, c, d⟩ := hw
  unfold place
  have h1 : ((py : Int) - y).toNat + 1 ≤ h := by omega
  have := Nat.mul_le_mul_right w h1
  rw [Nat.succ_mul, Nat.mul_comm h] at this
  omega

/-- One bitmap more on both. -/
theorem bitmap_close {store : Rat → Nat} (hs : Nearest store) (simd : Bool) {F : List Spec.Blend.Px} {w h : Nat} (hsz : Size w h)
    (hF : F.length = w * h) (hB : ∀ d ∈ F, d.Bytes) {b : Bitmap} (hb : Fitting b) (hso : Sound b) :
    ∃ F', softwareBitmap simd (flat F) w h b = .ok (flat F') ∧ F'.length = w * h ∧ (∀ d ∈ F', d.Bytes) ∧
      ∀ px py k e, px < w → py < h → Bytes e → (∀ d, F[py * w + px]? = some d → Close k d e) →
        Bytes (add store px py e b) ∧ ∀ d, F'[py * w + px]? = some d → Close (k + 2) d (add store px py e b) := by
  have widen : ∀ {k : Nat} {d : Spec.Blend.Px} {e : Px}, Close k d e → Close (k + 2) d e := by
    intro k d e hk
    unfold Close at *
    omega
  have area : ∀ {w h : Nat}, Size w h → w * h < 2 ^ 31 := by
    intro w h hs
    have := Nat.mul_le_mul hs.2.2.1 hs.2.2.2
    omega
  have mod : ∀ {tw th : Nat} {x y : Int}, Size tw th → Near x y → Moderate w h tw th x y := by
    intro tw th x y h1 h2
    have a1 := area hsz
    have a2 := area h1
    obtain ⟨s1, s2, s3, s4⟩ := hsz
    obtain ⟨t1, t2, t3, t4⟩ := h1
    obtain ⟨n1, n2, n3, n4⟩ := h2
    exact ⟨by omega, by omega, by omega, by omega, a1, a2, by omega, by omega, by omega, by omega⟩
  cases b with
  | coverage tw th data x y r g b a =>
    obtain ⟨h1, h2, h3⟩ := hb
    obtain ⟨c1, c2, c3, c4, c5⟩ := hso
    obtain ⟨F', f1, f2, f3, _, f5⟩ := Verif.Props.Blend.C78_coverage_partial simd hF hB h3 c1 c2 c3 c4 c5 (mod h1 h2)
    refine ⟨F', f1, f2.trans hF, f3, ?_⟩
    intro px py k e hpx hpy he hk
    obtain ⟨g1, g2⟩ := f5 px py hpx hpy
    unfold add
    by_cases hin : Within tw th x y px py
    · simp only [shows, if_pos hin]
      have hlt : place tw x y px py < data.length := by
        rw [h3]
        exact place_lt hin
      have hget : data[place tw x y px py]? = some (data.getD (place tw x y px py) 0) := by
        rw [List.getElem?_eq_getElem hlt, List.getD_eq_getElem?_getD, List.getElem?_eq_getElem hlt]
        rfl
      have hcov := g1 _ _ (covers_within.1 hin) hget
      have hcb : data.getD (place tw x y px py) 0 ≤ 255 := Verif.Blend.getD_byte c1 _
      cases hFd : F[py * w + px]? with
      | none =>
        refine ⟨?_, ?_⟩
        · exact (coverage_close hs c2 c3 c4 c5 hcb he (k := 255) (d := ⟨0, 0, 0, 0⟩) (by
            obtain ⟨e1, e2, e3, e4⟩ := he
            unfold Close
            dsimp only
            omega) rfl rfl rfl rfl).1
        · intro d hd'
          rw [hcov, hFd] at hd'
          exact nomatch hd'
      | some d0 =>
        have hcl := coverage_close hs c2 c3 c4 c5 hcb he (hk d0 hFd) (s := ⟨(r : Rat) / 255 * ((a : Rat) / 255 * ((data.getD (place tw x y px py) 0 : Nat) / 255)),
          (g : Rat) / 255 * ((a : Rat) / 255 * ((data.getD (place tw x y px py) 0 : Nat) / 255)),
          (b : Rat) / 255 * ((a : Rat) / 255 * ((data.getD (place tw x y px py) 0 : Nat) / 255)),
          (a : Rat) / 255 * ((data.getD (place tw x y px py) 0 : Nat) / 255)⟩) rfl rfl rfl rfl
        refine ⟨hcl.1, ?_⟩
        intro d hd'
        rw [hcov, hFd] at hd'
        cases hd'
        exact hcl.2
    · simp only [shows, if_neg hin]
      refine ⟨he, ?_⟩
      intro d hd'
      rw [g2 (fun i hc => hin (covers_only hc))] at hd'
      exact widen (hk d hd')
  | rgba tw th data x y =>
    obtain ⟨h1, h2, h3⟩ := hb
    obtain ⟨S, s1, s2, s3⟩ := pixels_of h3
    have hS : ∀ q ∈ S, q.Premultiplied := by
      intro q hq
      obtain ⟨i, hi, hiq⟩ := List.mem_iff_getElem.1 hq
      have := s3 i (by omega)
      rw [List.getElem?_eq_getElem hi, hiq] at this
      cases this
      exact hso i (by omega)
    obtain ⟨F', f1, f2, f3, _, f5⟩ := Verif.Props.Blend.C78_bitmap_partial hF hB s2 hS (mod h1 h2)
    rw [s1] at f1
    refine ⟨F', f1, f2.trans hF, f3, ?_⟩
    intro px py k e hpx hpy he hk
    obtain ⟨g1, g2⟩ := f5 px py hpx hpy
    unfold add
    by_cases hin : Within tw th x y px py
    · simp only [shows, if_pos hin]
      have hget := s3 _ (place_lt hin)
      have hcov := g1 _ _ (covers_within.1 hin) hget
      have hpre := hS _ (List.mem_of_getElem? hget)
      cases hFd : F[py * w + px]? with
      | none =>
        refine ⟨?_, ?_⟩
        · exact (rgba_close hs hpre he (k := 255) (d := ⟨0, 0, 0, 0⟩) (by
            obtain ⟨e1, e2, e3, e4⟩ := he
            unfold Close
            dsimp only
            omega)).1
        · intro d hd'
          rw [hcov, hFd] at hd'
          exact nomatch hd'
      | some d0 =>
        have hcl := rgba_close hs hpre he (hk d0 hFd)
        refine ⟨hcl.1, ?_⟩
        intro d hd'
        rw [hcov, hFd] at hd'
        cases hd'
        exact hcl.2
    · simp only [shows, if_neg hin]
      refine ⟨he, ?_⟩
      intro d hd'
      rw [g2 (fun i hc => hin (covers_only hc))] at hd'
      exact widen (hk d hd')

theorem bitmaps_close {store : Rat → Nat} (hs : Nearest store) (simd : Bool) {w h : Nat} (hsz : Size w h) :
    ∀ {bs : List Bitmap} {F : List Spec.Blend.Px} {P : Nat → Nat → Px} {k : Nat}, F.length = w * h → (∀ d ∈ F, d.Bytes) →
    (∀ b ∈ bs, Fitting b) → (∀ b ∈ bs, Sound b) → (∀ px py, px < w → py < h → Bytes (P px py) ∧
      ∀ d, F[py * w + px]? = some d → Close k d (P px py)) →
    ∃ F', software simd w h bs (flat F) = .ok (flat F') ∧ F'.length = w * h ∧ ∀ px py d, px < w → py < h →
      F'[py * w + px]? = some d → Close (k + 2 * bs.length) d (bs.foldl (add store px py) (P px py)) := by
  intro bs
  induction bs with
  | nil =>
    intro F P k hF hB _ _ hP
    exact ⟨F, rfl, hF, fun px py d hx hy hd => (hP px py hx hy).2 d hd⟩
  | cons b bs ih =>
    intro F P k hF hB hfit hso hP
    obtain ⟨F1, a1, a2, a3, a4⟩ := bitmap_close hs simd hsz hF hB (hfit b List.mem_cons_self) (hso b List.mem_cons_self)
    obtain ⟨F', b1, b2, b3⟩ := ih (P := fun px py => add store px py (P px py) b) (k := k + 2) a2 a3
      (fun c hc => hfit c (List.mem_cons_of_mem _ hc)) (fun c hc => hso c (List.mem_cons_of_mem _ hc)) (by
        intro px py hx hy
        obtain ⟨p1, p2⟩ := hP px py hx hy
        exact a4 px py k _ hx hy p1 p2)
    refine ⟨F', ?_, b2, ?_⟩
    · rw [software, bind_of a1]
      exact b1
    · intro px py d hx hy hd
      rw [List.foldl_cons, List.length_cons, show k + 2 * (bs.length + 1) = k + 2 + 2 * bs.length by omega]
      exact b3 px py d hx hy hd

/-- **C128.**  The software backend, on the same bitmaps, gives a picture in which every channel of every pixel differs by at most 2 for each bitmap. `_partial`: for sound bitmaps of a usual size, and not byte for byte; see `C128_software_violated`. -/
theorem C128_software_partial {store : Rat → Nat} (hs : Nearest store) (simd : Bool) {bs : List Bitmap} {w h : Nat} (hsz : Size w h)
    (hb : ∀ b ∈ bs, Fitting b) (hso : ∀ b ∈ bs, Sound b) :
    ∃ F, software simd w h bs (List.replicate (4 * (w * h)) 0) = .ok (flat F) ∧ F.length = w * h ∧
      ∀ px py d, px < w → py < h → F[py * w + px]? = some d → Close (2 * bs.length) d (picture store bs px py) := by
  have hflat : List.replicate (4 * (w * h)) 0 = flat (List.replicate (w * h) ⟨0, 0, 0, 0⟩) := by
    generalize w * h = n
    induction n with
    | zero => rfl
    | succ n ih =>
      rw [List.replicate_succ, Verif.Blend.flat_cons, ← ih, show 4 * (n + 1) = 4 * n + 1 + 1 + 1 + 1 by omega]
      rfl
  rw [hflat]
  obtain ⟨F', b1, b2, b3⟩ := bitmaps_close hs simd hsz (bs := bs) (F := List.replicate (w * h) ⟨0, 0, 0, 0⟩) (P := fun _ _ => ⟨0, 0, 0, 0⟩)
    (k := 0) List.length_replicate (by
      intro d hd
      rw [List.eq_of_mem_replicate hd]
      unfold Spec.Blend.Px.Bytes
      decide) hb hso (by
      intro px py _ _
      refine ⟨by unfold Bytes; decide, ?_⟩
      intro d hd
      rw [List.eq_of_mem_replicate (List.mem_of_getElem? hd)]
      unfold Close
      decide)
  rw [Nat.zero_add] at b3
  exact ⟨F', b1, b2, b3⟩


/-! ## Concrete cases -/

/-- A usual device whose arithmetic is exact and which stores the nearest byte. -/
def exact : Device := ⟨8192, 2 ^ 28, 256, id, fun q => (q * 255 + 1 / 2).floor.toNat, fun _ _ => 7⟩

theorem exact_usual : Usual exact := ⟨rfl, rfl, rfl⟩

theorem exact_faithful : Faithful exact.f32 := by
  refine ⟨fun _ _ _ => rfl, ?_⟩
  intro q _ _
  show q - max q (-q) / 2 ^ 24 - 1 / 2 ^ 100 ≤ q ∧ q ≤ q + max q (-q) / 2 ^ 24 + 1 / 2 ^ 100
  rcases Rat.le_total (a := 0) (b := q) with h | h
  · rw [show max q (-q) = q by grind]
    constructor <;> grind
  · rw [show max q (-q) = -q by grind]
    constructor <;> grind

theorem exact_nearest : Nearest exact.store := by
  intro q h0 h1
  show (q * 255 + 1 / 2).floor.toNat ≤ 255 ∧ _
  have f0 : 0 ≤ (q * 255 + 1 / 2).floor := Rat.le_floor_iff.2 (by
    have : ((0 : Int) : Rat) = 0 := rfl
    rw [this]
    grind)
  have f1 : (q * 255 + 1 / 2).floor < 256 := Rat.floor_lt_iff.2 (by
    have : ((256 : Int) : Rat) = 256 := rfl
    rw [this]
    grind)
  have g0 := Rat.floor_le (q * 255 + 1 / 2)
  have g1 := Rat.lt_floor_add_one (q * 255 + 1 / 2)
  have e : (((q * 255 + 1 / 2).floor.toNat : Nat) : Rat) = ((q * 255 + 1 / 2).floor : Rat) := by
    rw [← Rat.intCast_natCast, Int.toNat_of_nonneg f0]
  refine ⟨by omega, ?_⟩
  show (((q * 255 + 1 / 2).floor.toNat : Nat) : Rat) - 1 / 2 ≤ q * 255 ∧ q * 255 ≤ (((q * 255 + 1 / 2).floor.toNat : Nat) : Rat) + 1 / 2
  rw [e]
  constructor <;> grind

/-- The new compositor. -/
def blank : Gpu := ⟨256, ⟨[], []⟩, none, none, none, none, []⟩

theorem blank_reached : Reached exact blank := ⟨blank, [], rfl, rfl⟩

/-- Two bitmaps that overlap and reach over the edge of a frame of 2×2. -/
def two : List Bitmap := [.coverage 2 1 [255, 128] 0 0 255 0 0 255, .rgba 2 2 [1, 1, 1, 1, 9, 9, 9, 9, 0, 0, 100, 200, 3, 3, 3, 3] 1 (-1)]

theorem two_fitting : ∀ b ∈ two, Fitting b := by
  intro b hb
  simp only [two, List.mem_cons, List.not_mem_nil, or_false] at hb
  rcases hb with rfl | rfl
  · exact ⟨by unfold Size; decide, by unfold Near; decide, rfl⟩
  · exact ⟨by unfold Size; decide, by unfold Near; decide, rfl⟩

theorem two_sound : ∀ b ∈ two, Sound b := by
  intro b hb
  simp only [two, List.mem_cons, List.not_mem_nil, or_false] at hb
  rcases hb with rfl | rfl
  · unfold Sound; decide
  · show ∀ i, i < 4 → _
    decide

/-- The picture of the two. -/
example : bytes 2 2 (picture exact.store two) = [255, 0, 0, 255, 28, 0, 100, 228, 0, 0, 0, 0, 0, 0, 0, 0] := by decide +kernel

/-- The hypotheses of `C128_composite_partial` hold of the two bitmaps on the new compositor. -/
example : ∃ g', composite exact blank two 2 2 true = .ok (g', some [255, 0, 0, 255, 28, 0, 100, 228, 0, 0, 0, 0, 0, 0, 0, 0]) := by
  have := (C128_composite_partial exact_usual exact_faithful blank_reached (w := 2) (h := 2) (by unfold Size; decide) two_fitting (by decide)).1
  rw [show bytes 2 2 (picture exact.store two) = [255, 0, 0, 255, 28, 0, 100, 228, 0, 0, 0, 0, 0, 0, 0, 0] by decide +kernel] at this
  exact this

/-- The hypotheses of `C128_layer_partial`, with a composition in between. -/
example : ∃ g1, renderLayer exact blank two 2 2 = .ok (g1, true) ∧ ∃ g2, run exact g1 [.composite [] 3 1 true] = .ok g2 ∧
    layerToBytes exact g2 true = .ok (some (bytes 2 2 (picture exact.store two))) := by
  obtain ⟨g1, h1, h2⟩ := C128_layer_partial exact_usual exact_faithful blank_reached (w := 2) (h := 2) (by unfold Size; decide) two_fitting (by decide)
  have hr : Reached exact g1 := ⟨blank, [.renderLayer two 2 2], rfl, by
    show bind (bind (renderLayer exact blank two 2 2) fun r => .ok r.1) _ = _
    rw [h1]
    rfl⟩
  obtain ⟨⟨g2, h3⟩, _⟩ := C128_composite_partial exact_usual exact_faithful hr (bs := []) (w := 3) (h := 1) (by unfold Size; decide)
    (fun _ h => absurd h List.not_mem_nil) (by decide)
  have h4 : run exact g1 [.composite [] 3 1 true] = .ok g2 := by
    show bind (bind (composite exact g1 [] 3 1 true) fun r => .ok r.1) _ = _
    rw [h3]
    rfl
  refine ⟨g1, h1, g2, h4, (h2 _ g2 ?_ h4).1⟩
  intro op hop
  simp only [List.mem_cons, List.not_mem_nil, or_false] at hop
  subst hop
  trivial

/-- The hypotheses of `C128_reuse`. -/
example : ∃ g1 g2 out, composite exact blank two 2 2 true = .ok (g1, some out) ∧ composite exact g1 two 2 2 true = .ok (g2, some out) ∧
    g2.heap.textures.length = g1.heap.textures.length := by
  obtain ⟨⟨g1, h1⟩, _⟩ := C128_composite_partial exact_usual exact_faithful blank_reached (w := 2) (h := 2) (by unfold Size; decide) two_fitting (by decide)
  have hr : Reached exact g1 := ⟨blank, [.composite two 2 2 true], rfl, by
    show bind (bind (composite exact blank two 2 2 true) fun r => .ok r.1) _ = _
    rw [h1]
    rfl⟩
  obtain ⟨⟨g2, h2⟩, _⟩ := C128_composite_partial exact_usual exact_faithful hr (w := 2) (h := 2) (by unfold Size; decide) two_fitting (by decide)
  exact ⟨g1, g2, _, h1, h2, C128_reuse exact_usual blank_reached h1 h2⟩

/-- The hypotheses of `C128_software_partial`, and the software backend's picture. -/
example : (∀ b ∈ two, Fitting b) ∧ (∀ b ∈ two, Sound b) ∧
    software true 2 2 two (List.replicate 16 0) = .ok [255, 0, 0, 255, 28, 0, 100, 228, 0, 0, 0, 0, 0, 0, 0, 0] :=
  ⟨two_fitting, two_sound, by decide +kernel⟩

/-! ## Where it differs from the software backend, and panics -/

/-- **C128.**  The bytes are not those of the software backend, although compositor/mod.rs says "byte-compatible": the software backend rounds the premultiplied colour before it applies the coverage. -/
theorem C128_software_violated : ∃ (dev : Device) (g : Gpu) (b : Bitmap) (gpu soft : List Nat), Usual dev ∧ Faithful dev.f32 ∧
    Nearest dev.store ∧ Reached dev g ∧ Fitting b ∧ Sound b ∧ (∃ g', composite dev g [b] 1 1 true = .ok (g', some gpu)) ∧
    (∀ simd, software simd 1 1 [b] [0, 0, 0, 0] = .ok soft) ∧ gpu ≠ soft := by
  have hf : Fitting (.coverage 1 1 [128] 0 0 1 0 0 128) := ⟨by unfold Size; decide, by unfold Near; decide, rfl⟩
  refine ⟨exact, blank, .coverage 1 1 [128] 0 0 1 0 0 128, [0, 0, 0, 64], [1, 0, 0, 64], exact_usual, exact_faithful, exact_nearest, blank_reached,
    hf, by unfold Sound; decide, ?_, by decide +kernel, by decide⟩
  have := (C128_composite_partial exact_usual exact_faithful blank_reached (w := 1) (h := 1) (by unfold Size; decide)
    (bs := [.coverage 1 1 [128] 0 0 1 0 0 128]) (by
      intro b hb
      simp only [List.mem_cons, List.not_mem_nil, or_false] at hb
      subst hb
      exact hf) (by decide)).1
  rw [show bytes 1 1 (picture exact.store [.coverage 1 1 [128] 0 0 1 0 0 128]) = [0, 0, 0, 64] by decide +kernel] at this
  exact this

/-- The call panics. -/
def panics (o : Outcome α) : Bool :=
  match o with
  | .panic => true
  | _ => false

theorem panics_iff {o : Outcome α} : panics o = true ↔ o = .panic := by
  cases o <;> simp [panics]

/-- **C128.**  A bitmap far to the right of the frame makes the compositor panic, where the software backend draws nothing. -/
theorem C128_far_violated : ∃ (dev : Device) (g : Gpu) (b : Bitmap), Usual dev ∧ Faithful dev.f32 ∧ Reached dev g ∧ Sound b ∧
    composite dev g [b] 1 1 true = .panic ∧ renderLayer dev g [b] 1 1 = .panic ∧ ∀ simd, software simd 1 1 [b] [0, 0, 0, 0] = .ok [0, 0, 0, 0] :=
  ⟨exact, blank, .coverage 1 1 [128] 2147483647 0 1 0 0 128, exact_usual, exact_faithful, blank_reached, by unfold Sound; decide,
    panics_iff.1 (by decide +kernel), panics_iff.1 (by decide +kernel), by decide +kernel⟩

/-- **C128.**  So does a bitmap without pixels. -/
theorem C128_zero_violated : ∃ (dev : Device) (g : Gpu) (b : Bitmap), Usual dev ∧ Faithful dev.f32 ∧ Reached dev g ∧ Sound b ∧
    composite dev g [b] 1 1 true = .panic ∧ renderLayer dev g [b] 1 1 = .panic ∧ ∀ simd, software simd 1 1 [b] [0, 0, 0, 0] = .ok [0, 0, 0, 0] :=
  ⟨exact, blank, .coverage 0 1 [] 0 0 1 0 0 128, exact_usual, exact_faithful, blank_reached, by unfold Sound; decide,
    panics_iff.1 (by decide +kernel), panics_iff.1 (by decide +kernel), by decide +kernel⟩

/-- **C128.**  And one wider than the textures of the device, which the software backend draws. -/
theorem C128_size_violated : ∃ (dev : Device) (g : Gpu) (b : Bitmap), Usual dev ∧ Faithful dev.f32 ∧ Reached dev g ∧ Sound b ∧
    composite dev g [b] 1 1 true = .panic ∧ renderLayer dev g [b] 1 1 = .panic ∧
    ∀ simd, software simd 1 1 [b] [0, 0, 0, 0] = .ok [255, 255, 255, 255] := by
  refine ⟨exact, blank, .coverage 8193 1 (List.replicate 8193 255) 0 0 255 255 255 255, exact_usual, exact_faithful, blank_reached, ?_,
    panics_iff.1 (by decide +kernel), panics_iff.1 (by decide +kernel), by decide +kernel⟩
  refine ⟨?_, by decide, by decide, by decide, by decide⟩
  intro c hc
  rw [List.eq_of_mem_replicate hc]
  decide

theorem pow_above {n : Nat} : n ≤ nextPow2 n := by
  unfold nextPow2
  split
  · assumption
  · have := Nat.lt_log2_self (n := n - 1)
    omega

theorem pow_big {n : Nat} (hn : 2 ^ 20 < n) : 2 ^ 21 ≤ nextPow2 n := by
  unfold nextPow2
  rw [if_neg (by omega)]
  have h1 : 20 ≤ Nat.log2 (n - 1) := (Nat.le_log2 (by omega)).2 (by omega)
  exact Nat.pow_le_pow_right (by omega) (by omega)

/-- **C128.**  And more than `2 ^ 20` bitmaps of any kind on a new compositor. -/
theorem C128_count_violated {dev : Device} (hd : Usual dev) {g : Gpu} (hg : new dev = .ok g) {bs : List Bitmap} (hn : 2 ^ 20 < bs.length)
    {w h : Nat} (hs : Size w h) (m : Bool) : composite dev g bs w h m = .panic ∧ renderLayer dev g bs w h = .panic := by
  have hi : g.stride = 256 ∧ g.uniforms = none := by
    unfold new at hg
    rw [hd.2.2] at hg
    cases hg
    exact ⟨rfl, rfl⟩
  have hne : ¬ (w = 0 ∨ h = 0) := by
    have := hs.1
    have := hs.2.1
    omega
  have full : ∀ {g : Gpu}, g.stride = 256 → g.uniforms = none → prepareTiles dev g bs w h = .panic := by
    intro g h1 h2
    have : ensureUniforms dev g (min bs.length 4294967295) = .panic := by
      have hpos : 2 ^ 20 < min bs.length 4294967295 := by omega
      generalize min bs.length 4294967295 = n at hpos
      unfold ensureUniforms
      rw [h2]
      cases n with
      | zero => omega
      | succ n =>
        show ensureUniforms.fresh dev g (n + 1) = _
        have hp := pow_big hpos
        unfold ensureUniforms.fresh u32
        by_cases hlt : nextPow2 (n + 1) < 4294967296
        · rw [if_pos hlt]
          show (if _ then _ else _) = _
          rw [h1, hd.2.1, if_neg (by omega)]
        · rw [if_neg hlt]
          rfl
    unfold prepareTiles
    rw [this]
    rfl
  obtain ⟨g1, h1⟩ := target_ok hd (g := g) hs
  constructor
  · unfold composite
    rw [if_neg hne, bind_of h1]
    have k : g1.stride = g.stride ∧ g1.uniforms = g.uniforms := by
      unfold ensureTarget at h1
      split at h1
      · cases h1
        exact ⟨rfl, rfl⟩
      · obtain ⟨_, _, h1⟩ := bind_some h1
        cases h1
        exact ⟨rfl, rfl⟩
    rw [full (k.1.trans hi.1) (k.2.trans hi.2)]
    rfl
  · unfold renderLayer
    rw [if_neg hne]
    cases hl : ensureLayer dev g w h with
    | panic => rfl
    | err =>
      unfold ensureLayer at hl
      rw [surface_ok hd hs] at hl
      split at hl <;> exact nomatch hl
    | ok g1 =>
      have k : g1.stride = g.stride ∧ g1.uniforms = g.uniforms := by
        unfold ensureLayer at hl
        split at hl
        · cases hl
          exact ⟨rfl, rfl⟩
        · obtain ⟨_, _, hl⟩ := bind_some hl
          cases hl
          exact ⟨rfl, rfl⟩
      show bind (prepareTiles dev g1 bs w h) _ = _
      rw [full (k.1.trans hi.1) (k.2.trans hi.2)]
      rfl

/-- The numbers of textures after a composition that cannot be read and another one. -/
def counts (dev : Device) (g : Gpu) (bs : List Bitmap) (w h : Nat) : Option (Nat × Nat) :=
  match composite dev g bs w h false with
  | .ok (g1, none) =>
    match composite dev g1 bs w h true with
    | .ok (g2, some _) => some (g1.heap.textures.length, g2.heap.textures.length)
    | _ => none
  | _ => none

theorem counts_some {dev : Device} {g : Gpu} {bs : List Bitmap} {w h : Nat} {m n : Nat} (hc : counts dev g bs w h = some (m, n)) :
    ∃ g1 g2 out, composite dev g bs w h false = .ok (g1, none) ∧ composite dev g1 bs w h true = .ok (g2, some out) ∧
      g1.heap.textures.length = m ∧ g2.heap.textures.length = n := by
  unfold counts at hc
  split at hc
  · rename_i g1 h1
    split at hc
    · rename_i g2 out h2
      cases hc
      exact ⟨g1, g2, out, h1, h2, rfl, rfl⟩
    · exact nomatch hc
  · exact nomatch hc

/-- **C128.**  When the picture cannot be read back the textures are lost: the next composition makes new ones. -/
theorem C128_lost_violated : ∃ (dev : Device) (g : Gpu) (b : Bitmap) (w h : Nat) (g1 g2 : Gpu) (out : List Nat), Usual dev ∧ Faithful dev.f32 ∧
    Reached dev g ∧ Fitting b ∧ composite dev g [b] w h false = .ok (g1, none) ∧ composite dev g1 [b] w h true = .ok (g2, some out) ∧
      g1.heap.textures.length < g2.heap.textures.length := by
  obtain ⟨g1, g2, out, h1, h2, h3, h4⟩ := counts_some (dev := exact) (g := blank) (bs := [.coverage 1 1 [128] 0 0 1 0 0 128]) (w := 1) (h := 1)
    (m := 1) (n := 2) (by decide +kernel)
  exact ⟨exact, blank, .coverage 1 1 [128] 0 0 1 0 0 128, 1, 1, g1, g2, out, exact_usual, exact_faithful, blank_reached,
    ⟨by unfold Size; decide, by unfold Near; decide, rfl⟩, h1, h2, by omega⟩

end Verif.Props.Gpu
