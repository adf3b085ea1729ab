import Verif.Lemmas.Paint
/-!
# C115 Painting text: cached shapes, karaoke and decorations
-/
namespace Verif.Props
open Verif
open Verif.Paint
open Verif.Spec.Paint
open Verif.Color (Rgba)

variable {G T : Type}

/-- A sample renderer: outlines are numbers, and projecting them changes them. -/
private def env0 : Env Nat (Sym Nat) :=
  ⟨fun _ => ⟨100, 20, 15, 15, -5⟩, fun _ _ => 7, fun _ _ _ _ _ => 8, fun z => if z = -90 then (0, -1) else (1, 0),
    fun g t s => some (⟨g, { t with tx := t.tx - 2, ty := t.ty - 3 }, s⟩, 2, 3), fun _ => 50⟩

private def white : Rgba := ⟨255, 255, 255, 255⟩
private def black : Rgba := ⟨0, 0, 0, 255⟩
private def text0 (es : List Effect) : Data := ⟨['a'], ['F'], 20, 0, white, 200, 85, es⟩

/-- Whatever was drawn before, each text is painted as with empty caches.  Missing: texts both turned out of the plane and blurred,
see below. -/
theorem C115_cached_partial (env : Env G T) (ds : List Data) (h : ∀ d ∈ ds, ¬(Tilted d ∧ Blurred d)) :
    (drawAll env ds fresh).1 = ds.map (fun d => (drawText env d fresh).1) := by
  suffices ∀ s : State G T, Inv env s → (drawAll env ds s).1 = ds.map (fun d => (drawText env d fresh).1) from
    this _ (inv_none env)
  induction ds with
  | nil => intro s _; rfl
  | cons d ds ih =>
    intro s hi
    have h1 := drawText_fresh hi d (h d List.mem_cons_self)
    simp only [drawAll, List.map_cons]
    rw [h1.1, ih (fun d' hd' => h d' (List.mem_cons_of_mem _ hd')) _ h1.2]

example : (drawAll env0 [text0 [.shadow black 2 2], text0 [.blur 1], text0 [.blur 1], text0 [.shadow black 2 2]] fresh).2.blur.length = 1 := by
  decide +kernel

/-- A blurred text drawn after one that is also turned out of the plane shows the picture of the latter, which was kept under the same
key. -/
theorem C115_cached_violated :
    (drawAll env0 [text0 [.blur 1, .rotation 30 0 0 none], text0 [.blur 1]] fresh).1 ≠
      [text0 [.blur 1, .rotation 30 0 0 none], text0 [.blur 1]].map (fun d => (drawText env0 d fresh).1) := by
  decide +kernel

/-- However much is drawn, at most 256 sharp and 512 blurred texts are kept. -/
theorem C115_bounded (env : Env G T) (ds : List Data) :
    (drawAll env ds fresh).2.cov.length ≤ 256 ∧ (drawAll env ds fresh).2.blur.length ≤ 512 := by
  suffices ∀ s : State G T, s.cov.length ≤ 256 ∧ s.blur.length ≤ 512 →
      (drawAll env ds s).2.cov.length ≤ 256 ∧ (drawAll env ds s).2.blur.length ≤ 512 from
    this _ ⟨Nat.zero_le _, Nat.zero_le _⟩
  induction ds with
  | nil => intro s h; exact h
  | cons d ds ih => intro s h; exact ih _ (drawText_size env d s h)

/-! ## Karaoke -/

private theorem round_mono {p q : Rat} (h : p ≤ q) : round p ≤ round q := by
  unfold round
  by_cases hp : 0 ≤ p
  · rw [if_pos hp, if_pos (by grind)]
    rw [Rat.le_floor_iff]
    have := Rat.floor_le (p + 1 / 2)
    grind
  · rw [if_neg hp]
    have h1 : 0 ≤ (-p + 1 / 2).floor := by rw [Rat.le_floor_iff]; grind
    by_cases hq : 0 ≤ q
    · rw [if_pos hq]
      have h2 : 0 ≤ (q + 1 / 2).floor := by rw [Rat.le_floor_iff]; grind
      omega
    · rw [if_neg hq]
      have : (-q + 1 / 2).floor ≤ (-p + 1 / 2).floor := by
        rw [Rat.le_floor_iff]
        have := Rat.floor_le (-q + 1 / 2)
        grind
      omega

private theorem round_int (n : Int) : round (n : Rat) = n := by
  have key : ∀ m : Int, ((m : Rat) + 1 / 2).floor = m := by
    intro m
    apply Int.le_antisymm
    · have h1 := Rat.floor_le ((m : Rat) + 1 / 2)
      have h2 : (((m : Rat) + 1 / 2).floor : Rat) < ((m + 1 : Int) : Rat) := by rw [Rat.intCast_add]; grind
      have := Rat.intCast_lt_intCast.1 h2
      omega
    · rw [Rat.le_floor_iff]; grind
  unfold round
  split
  · exact key n
  · rw [← Rat.intCast_neg, key]; omega

/-- The sung part of a syllable never shrinks, begins with the tile's left border and does not reach its right border before the end. -/
theorem C115_sweep {p q : Rat} {w : Nat} (h0 : 0 ≤ p) (hpq : p ≤ q) (h1 : q ≤ 1) (hw : 2 ≤ w) :
    sweepCols p w ≤ sweepCols q w ∧ 1 ≤ sweepCols p w ∧ sweepCols q w ≤ w - 1 := by
  have hw' : (2 : Rat) ≤ w := Rat.natCast_le_natCast.2 hw
  have e1 : round 1 = 1 := round_int 1
  have e2 : round ((w : Rat) - 1) = (w : Int) - 1 := by
    have := round_int ((w : Int) - 1)
    rwa [Rat.intCast_sub, Rat.intCast_natCast] at this
  have hnn : 0 ≤ (w : Rat) - 2 := by grind
  have a := Rat.mul_nonneg h0 hnn
  have b := Rat.mul_le_mul_of_nonneg_right hpq hnn
  have c := Rat.mul_le_mul_of_nonneg_right h1 hnn
  have r1 := round_mono (p := 1) (q := 1 + p * ((w : Rat) - 2)) (by grind)
  have r2 := round_mono (p := 1 + p * ((w : Rat) - 2)) (q := 1 + q * ((w : Rat) - 2)) (by grind)
  have r3 := round_mono (p := 1 + q * ((w : Rat) - 2)) (q := (w : Rat) - 1) (by grind)
  rw [e1] at r1
  rw [e2] at r3
  unfold sweepCols
  omega

example : sweepCols (1 / 2) 50 = 25 := by decide +kernel

private theorem flatMap_get {f : Nat → List Nat} {c : Nat} : ∀ {n : Nat}, (∀ y, y < n → (f y).length = c) → ∀ {x y : Nat},
    y < n → x < c → ((List.range n).flatMap f)[y * c + x]? = (f y)[x]? := by
  intro n
  induction n with
  | zero => intro _ x y hy; omega
  | succ n ih =>
    intro hf x y hy hx
    rw [List.range_succ, List.flatMap_append]
    have hlen : ((List.range n).flatMap f).length = n * c := by
      clear ih hy
      induction n with
      | zero => simp
      | succ n ih =>
        rw [List.range_succ, List.flatMap_append, List.length_append, ih (fun y hy => hf y (by omega))]
        simp only [List.flatMap_cons, List.flatMap_nil, List.append_nil]
        rw [hf n (by omega), Nat.succ_mul]
    by_cases h : y < n
    · rw [List.getElem?_append_left, ih (fun y hy => hf y (by omega)) h hx]
      rw [hlen]
      calc y * c + x < y * c + c := by omega
        _ = (y + 1) * c := by rw [Nat.succ_mul]
        _ ≤ n * c := Nat.mul_le_mul_right _ h
    · have hy' : y = n := by omega
      subst hy'
      rw [List.getElem?_append_right (by rw [hlen]; omega), hlen]
      simp only [List.flatMap_cons, List.flatMap_nil, List.append_nil]
      congr 1
      omega

/-- The part shown as sung is the left part of the syllable, row by row: of a tile of complete rows, the pixel in column `x` and row `y`
of the part is the pixel in that column and row of the whole. -/
theorem C115_part {width height cols : Nat} {data : List Nat} (hd : data.length = width * height) (hc : cols ≤ width) {x y : Nat}
    (hx : x < cols) (hy : y < height) :
    (cropColumns width height data cols)[y * cols + x]? = data[y * width + x]? ∧
      (cropColumns width height data cols).length = cols * height := by
  have hlen : ∀ y', y' < height → ((data.drop (y' * width)).take (min cols width)).length = cols := by
    intro y' hy'
    rw [List.length_take, List.length_drop, hd, Nat.min_eq_left hc]
    have : (y' + 1) * width ≤ height * width := Nat.mul_le_mul_right _ hy'
    rw [Nat.succ_mul] at this
    rw [Nat.mul_comm width height]
    omega
  constructor
  · unfold cropColumns
    rw [flatMap_get hlen hy hx, Nat.min_eq_left hc, List.getElem?_take_of_lt hx, List.getElem?_drop]
  · unfold cropColumns
    rw [List.length_flatMap]
    have : (List.range height).map (fun y' => ((data.drop (y' * width)).take (min cols width)).length)
        = (List.range height).map (fun _ => cols) :=
      List.map_congr_left (fun y' hy' => hlen y' (List.mem_range.1 hy'))
    rw [this, List.map_const', List.sum_replicate_nat, List.length_range, Nat.mul_comm]

example : cropColumns 3 2 [1, 2, 3, 4, 5, 6] 2 = [1, 2, 4, 5] := by decide

/-! ## The same text by both ways of painting -/

private theorem round_near (q : Rat) : within (1 / 2) (round q : Rat) q := by
  unfold round within
  split
  · have h1 := Rat.floor_le (q + 1 / 2)
    have h2 := Rat.lt_floor_add_one (q + 1 / 2)
    rw [Rat.intCast_add] at h2
    constructor <;> grind
  · have h1 := Rat.floor_le (-q + 1 / 2)
    have h2 := Rat.lt_floor_add_one (-q + 1 / 2)
    rw [Rat.intCast_add] at h2
    rw [Rat.intCast_neg]
    constructor <;> grind

private theorem none_of_count {es : List Effect} :
    (es.countP isOutline = 0 → es.findSome? asOutline = none) ∧ (es.countP isShadow = 0 → es.findSome? asShadow = none) := by
  constructor
  · intro h
    rw [List.countP_eq_zero] at h
    rw [List.findSome?_eq_none_iff]
    intro e he
    have := h e he
    cases e <;> simp [isOutline] at this <;> rfl
  · intro h
    rw [List.countP_eq_zero] at h
    rw [List.findSome?_eq_none_iff]
    intro e he
    have := h e he
    cases e <;> simp [isShadow] at this <;> rfl

private theorem collect_plain {color : Rgba} {es : List Effect} (hp : ∀ e ∈ es, Plain e) (ho : es.countP isOutline ≤ 1)
    (hs : es.countP isShadow ≤ 1) (l : Look) :
    collectAll color es l =
      some ⟨(es.findSome? asOutline).or l.outline, (es.findSome? asShadow).or l.shadow, l.fill, l.sweep⟩ := by
  induction es generalizing l with
  | nil => rfl
  | cons e es ih =>
    have hp' : ∀ e ∈ es, Plain e := fun e he => hp e (List.mem_cons_of_mem _ he)
    rw [List.countP_cons] at ho hs
    cases hp e List.mem_cons_self with
    | outline c x y =>
      have h0 : es.countP isOutline = 0 := by simp only [isOutline, if_pos] at ho; omega
      have h1 : es.countP isShadow ≤ 1 := by omega
      simp only [collectAll, collect]
      rw [ih hp' (by omega) h1, none_of_count.1 h0]
      rfl
    | shadow c x y =>
      have h0 : es.countP isShadow = 0 := by simp only [isShadow, if_pos] at hs; omega
      have h1 : es.countP isOutline ≤ 1 := by omega
      simp only [collectAll, collect]
      rw [ih hp' h1 (by omega), none_of_count.2 h0]
      rfl
    | bold => exact ih hp' (by omega) (by omega) l
    | italic => exact ih hp' (by omega) (by omega) l
    | rotation z o => exact ih hp' (by omega) (by omega) l
    | scale x y => exact ih hp' (by omega) (by omega) l
    | shear x y => exact ih hp' (by omega) (by omega) l

private theorem outline_plain {d : Data} {g : G} {t : Aff} {es : List Effect} (hp : ∀ e ∈ es, Plain e) (ho : es.countP isOutline ≤ 1)
    (he : first asEdge d = none) (hb : first asBlur d = none) :
    es.flatMap (drawOutline d g t (T := T)) =
      match es.findSome? asOutline with
      | some (c, wx, wy) => [.fill g t (some (wx, wy)) c (first asClip d)]
      | none => [] := by
  induction es with
  | nil => rfl
  | cons e es ih =>
    have hp' : ∀ e ∈ es, Plain e := fun e he => hp e (List.mem_cons_of_mem _ he)
    rw [List.countP_cons] at ho
    rw [List.flatMap_cons]
    cases hp e List.mem_cons_self with
    | outline c x y =>
      have h0 : es.countP isOutline = 0 := by simp only [isOutline, if_pos] at ho; omega
      rw [ih hp' (by omega), none_of_count.1 h0]
      unfold drawOutline
      dsimp only
      rw [he, hb]
      rfl
    | shadow c x y => exact ih hp' (by omega)
    | bold => exact ih hp' (by omega)
    | italic => exact ih hp' (by omega)
    | rotation z o => exact ih hp' (by omega)
    | scale x y => exact ih hp' (by omega)
    | shear x y => exact ih hp' (by omega)

private theorem turned_plain {cosSin : Rat → Rat × Rat} {d : Data} (hp : ∀ e ∈ d.effects, Plain e) (sh : Shaped) :
    (turned cosSin d sh).2 = none := by
  cases h : (turned cosSin d sh).2 with
  | none => rfl
  | some r =>
    obtain ⟨x, y, z, o, hm, hxy⟩ := tilted_of (cosSin := cosSin) (d := d) (sh := sh) (t := (turned cosSin d sh).1) (r := r) (by rw [← h])
    cases hp _ hm with
    | rotation z o => rcases hxy with h | h <;> exact absurd rfl h

private theorem turned_underlined (cosSin : Rat → Rat × Rat) (d : Data) (sh : Shaped) :
    turned cosSin (underlined d) sh = turned cosSin d sh := by
  have : turn cosSin (underlined d) sh = turn cosSin d sh := by
    funext b acc e
    cases e <;> rfl
  unfold turned
  rw [this]
  unfold underlined
  rw [List.foldl_append]
  rfl

private theorem face_underlined (d : Data) : face (underlined d) = face d := by
  unfold face underlined
  simp

private theorem first_underlined {α : Type} (f : Effect → Option α) (hf : f .underline = none) (d : Data) :
    first f (underlined d) = first f d := by
  unfold first underlined
  rw [List.findSome?_append]
  simp only [List.findSome?_cons, hf, List.findSome?_nil]
  cases d.effects.findSome? f <;> rfl

/-- Underlining a text changes nothing else about how it is painted, up to a pixel: the same outlines, transformed, stroked and coloured
in the same way, in the same order.  (Underlined text is painted without the cache of sharp text, and not at whole pixels.)  Missing: text
with both an outline and a shadow, see below. -/
theorem C115_same_partial {env : Env G (Sym G)} (hr : Remembers env) {d : Data} (hp : ∀ e ∈ d.effects, Plain e)
    (ho : d.effects.countP isOutline ≤ 1) (hs : d.effects.countP isShadow ≤ 1)
    (h : d.effects.countP isOutline = 0 ∨ d.effects.countP isShadow = 0) :
    Alike 1 ((drawText env d fresh).1.flatMap inks) ((drawText env (underlined d) fresh).1.flatMap inks) := by
  have plain_none : ∀ {α : Type} (f : Effect → Option α), (∀ e, Plain e → f e = none) → first f d = none :=
    fun f hf => first_none (fun e he => hf e (hp e he))
  have hblur := plain_none asBlur (fun e he => by cases he <;> rfl)
  have hedge := plain_none asEdge (fun e he => by cases he <;> rfl)
  have hclip := plain_none asClip (fun e he => by cases he <;> rfl)
  have hkar := plain_none asKaraoke (fun e he => by cases he <;> rfl)
  have htn := turned_plain (cosSin := env.cosSin) hp (env.shape (face d))
  have hbl' : (underlined d).y = d.y := rfl
  have hsp : (underlined d).spacing = d.spacing := rfl
  have hcol : (underlined d).color = d.color := rfl
  have hx : (underlined d).x = d.x := rfl
  unfold drawText
  dsimp only
  rw [face_underlined, turned_underlined, hbl', hsp]
  cases ht : turned env.cosSin d (env.shape (face d)) with
  | mk t r =>
  rw [ht] at htn
  dsimp only at htn
  subst htn
  dsimp only
  unfold drawFlat
  dsimp only
  rw [face_underlined, hbl', hsp]
  generalize hbl : d.y + (env.shape (face d)).baseline = bl
  generalize hg : env.glyphs (face d) d.spacing = g
  -- the underlined text
  have hku : coverageKey (underlined d) t bl = none := by
    have : ∀ (es : List Effect) (l : Look), collectAll d.color (es ++ [.underline]) l = none := by
      intro es
      induction es with
      | nil => intro l; rfl
      | cons e es ih =>
        intro l
        simp only [List.cons_append, collectAll]
        cases collect d.color l e with
        | none => rfl
        | some l' => exact ih l'
    unfold coverageKey
    rw [show (underlined d).effects = d.effects ++ [.underline] from rfl, hcol, this]
  have hbu : blurHit (underlined d) bl (env.shape (face d)) (fresh : State G (Sym G)) = none := by
    unfold blurHit
    rw [first_underlined asBlur rfl, hblur]
    split <;> rfl
  -- the text itself
  have hk : coverageKey d t bl = some (⟨face d, d.spacing, (first asOutline d).map (fun o => (o.2.1, o.2.2)),
      (first asShadow d).map (fun s => (s.2.1, s.2.2)), t.moved (-d.x) (-bl)⟩, ⟨first asOutline d, first asShadow d, d.color, none⟩) := by
    unfold coverageKey
    rw [collect_plain hp ho hs]
    dsimp only
    rw [Option.or_none, Option.or_none]
    rfl
  have hbox : (underlined d).effects.flatMap (drawBox (underlined d) g t (T := Sym G)) = [] := by
    rw [List.flatMap_eq_nil_iff]
    intro e he
    rcases List.mem_append.1 he with he | he
    · cases hp e he <;> rfl
    · rw [List.mem_singleton.1 he]; rfl
  have hou : (underlined d).effects.flatMap (drawOutline (underlined d) g t (T := Sym G)) =
      match first asOutline d with
      | some (c, wx, wy) => [.fill g t (some (wx, wy)) c none]
      | none => [] := by
    rw [show (underlined d).effects = d.effects ++ [.underline] from rfl, List.flatMap_append,
      outline_plain hp ho (by rw [first_underlined asEdge rfl, hedge]) (by rw [first_underlined asBlur rfl, hblur]),
      first_underlined asClip rfl, hclip]
    unfold first
    cases d.effects.findSome? asOutline <;> rfl
  rw [hku, hbu, hk]
  dsimp only
  rw [show (fresh : State G (Sym G)).cov.get _ = none from rfl]
  dsimp only
  unfold drawVector drawMain drawShadow
  rw [hbox, hou, first_underlined asBlur rfl, first_underlined asShadow rfl, first_underlined asOutline rfl, first_underlined asClip rfl,
    first_underlined asKaraoke rfl, hblur, hkar, hclip, hcol]
  have hline : (drawLines (underlined d) bl (env.shape (face d)) : List (Out G (Sym G))).flatMap inks = [] := by
    rw [List.flatMap_eq_nil_iff]
    intro o hm
    unfold drawLines at hm
    rcases List.mem_append.1 hm with hm | hm
    · split at hm
      · rw [List.mem_singleton.1 hm]; rfl
      · cases hm
    · split at hm
      · rw [List.mem_singleton.1 hm]; rfl
      · cases hm
  have hrx := round_near d.x
  have hrb := round_near bl
  unfold within at hrx hrb
  simp only [List.flatMap_append, hline, List.append_nil]
  obtain ⟨corner, hr⟩ := hr
  unfold emit rasterize
  dsimp only
  rw [hr]
  dsimp only
  cases hO : first asOutline d with
  | none =>
    cases hS : first asShadow d with
    | none =>
      refine Alike.cons ⟨rfl, rfl, rfl, ⟨rfl, rfl, rfl, rfl⟩, ?_, ?_⟩ .nil <;>
      · simp only [Aff.moved, within, Rat.intCast_add]; constructor <;> grind
    | some sc =>
      obtain ⟨c, sx, sy⟩ := sc
      have h1 := round_near (sx * t.sx + sy * t.kx)
      have h2 := round_near (sx * t.ky + sy * t.sy)
      unfold within at h1 h2
      refine Alike.cons ⟨rfl, rfl, rfl, ?_, ?_, ?_⟩ (Alike.cons ⟨rfl, rfl, rfl, ⟨rfl, rfl, rfl, rfl⟩, ?_, ?_⟩ .nil)
      · simp only [Aff.moved, Aff.pre, Aff.translate]; refine ⟨?_, ?_, ?_, ?_⟩ <;> grind
      · simp only [Aff.moved, within, Aff.pre, Aff.translate, shadowDelta, Rat.intCast_add]; constructor <;> grind
      · simp only [Aff.moved, within, Aff.pre, Aff.translate, shadowDelta, Rat.intCast_add]; constructor <;> grind
      · simp only [Aff.moved, within, Rat.intCast_add]; constructor <;> grind
      · simp only [Aff.moved, within, Rat.intCast_add]; constructor <;> grind
  | some oc =>
    obtain ⟨c, wx, wy⟩ := oc
    have hS : first asShadow d = none := by
      rcases h with h | h
      · have := none_of_count.1 h
        unfold first at hO
        rw [this] at hO
        exact nomatch hO
      · exact none_of_count.2 h
    rw [hS]
    simp only [Option.map_some, Option.bind_some]
    rw [hr]
    refine Alike.cons ⟨rfl, rfl, rfl, ⟨rfl, rfl, rfl, rfl⟩, ?_, ?_⟩ (Alike.cons ⟨rfl, rfl, rfl, ⟨rfl, rfl, rfl, rfl⟩, ?_, ?_⟩ .nil) <;>
    · simp only [Aff.moved, within, Rat.intCast_add]; constructor <;> grind

example : Remembers env0 ∧ (∀ e ∈ (text0 [.bold, .shadow black 2 2]).effects, Plain e) ∧
    (drawText env0 (text0 [.bold, .shadow black 2 2]) fresh).1.length = 2 ∧
    (drawText env0 (underlined (text0 [.bold, .shadow black 2 2])) fresh).1.length = 3 := by
  refine ⟨⟨fun _ _ _ => (2, 3), fun _ _ _ => rfl⟩, ?_, by decide +kernel, by decide +kernel⟩
  intro e he
  simp only [text0, List.mem_cons, List.not_mem_nil, or_false] at he
  rcases he with rfl | rfl
  · exact .bold
  · exact .shadow ..

/-- With an outline and a shadow, underlining changes the shadow: that of underlined text has the shape of the outline too. -/
theorem C115_same_violated :
    ¬∀ d : Data, (∀ e ∈ d.effects, Plain e) → d.effects.countP isOutline ≤ 1 → d.effects.countP isShadow ≤ 1 →
      Alike 1 ((drawText env0 d fresh).1.flatMap inks) ((drawText env0 (underlined d) fresh).1.flatMap inks) := by
  intro h
  have hp : ∀ e ∈ (text0 [.outline black 2 2, .shadow black 2 2]).effects, Plain e := by
    intro e he
    simp only [text0, List.mem_cons, List.not_mem_nil, or_false] at he
    rcases he with rfl | rfl
    · exact .outline ..
    · exact .shadow ..
  have := h (text0 [.outline black 2 2, .shadow black 2 2]) hp (by decide) (by decide)
  have len : ∀ {l l' : List (Ink Nat)}, Alike 1 l l' → l.length = l'.length := by
    intro l l' h
    induction h with
    | nil => rfl
    | cons _ _ ih => simp only [List.length_cons, ih]
  exact absurd (len this) (by decide +kernel)

/-! ## Lines under and through the text -/

private theorem turned_still {cosSin : Rat → Rat × Rat} {d : Data} {sh : Shaped}
    (h : ∀ e ∈ d.effects, ∀ x y z o, e ≠ .rotation x y z o ∧ e ≠ .scale x y ∧ e ≠ .shear x y) :
    (turned cosSin d sh).1 = .translate d.x (d.y + sh.baseline) := by
  have key : ∀ (es : List Effect) (acc : Aff × Option (Rat × Rat × (Rat × Rat))) (b : Rat),
      (∀ e ∈ es, ∀ x y z o, e ≠ .rotation x y z o ∧ e ≠ .scale x y ∧ e ≠ .shear x y) →
      es.foldl (turn cosSin d sh b) acc = acc := by
    intro es
    induction es with
    | nil => intro acc b _; rfl
    | cons e es ih =>
      intro acc b hes
      rw [List.foldl_cons]
      have hE := hes e List.mem_cons_self
      have : turn cosSin d sh b acc e = acc := by
        cases e with
        | rotation x y z o => exact absurd rfl (hE x y z o).1
        | scale x y => exact absurd rfl (hE x y 0 none).2.1
        | shear x y => exact absurd rfl (hE x y 0 none).2.2
        | _ => rfl
      rw [this]
      exact ih acc b (fun e he => hes e (List.mem_cons_of_mem _ he))
  unfold turned
  rw [key d.effects _ _ h]

/-- The lines of upright text run along it: from its left to its right end, at a fixed height above or below the baseline.  Missing: text
that is rotated, stretched or sheared. -/
theorem C115_line_partial {cosSin : Rat → Rat × Rat} {d : Data} {sh : Shaped}
    (h : ∀ e ∈ d.effects, ∀ x y z o, e ≠ .rotation x y z o ∧ e ≠ .scale x y ∧ e ≠ .shear x y) {x0 x1 y w : Rat} {c : Rgba}
    {cl : Option Clip} (hm : (Out.line x0 x1 y w c cl : Out G T) ∈ drawLines d (d.y + sh.baseline) sh) :
    ∃ off, (off = -sh.descent / 2 ∨ off = -sh.ascent / 3) ∧ place (turned cosSin d sh).1 0 off = (x0, y) ∧
      place (turned cosSin d sh).1 sh.width off = (x1, y) ∧ c = d.color := by
  rw [turned_still h]
  unfold drawLines at hm
  unfold place Aff.translate
  dsimp only
  rcases List.mem_append.1 hm with hm | hm
  · split at hm
    · injection List.mem_singleton.1 hm with h1 h2 h3 h4 h5 h6
      refine ⟨-sh.descent / 2, .inl rfl, ?_, ?_, h5⟩ <;> rw [Prod.mk.injEq] <;> constructor <;> grind
    · cases hm
  · split at hm
    · injection List.mem_singleton.1 hm with h1 h2 h3 h4 h5 h6
      refine ⟨-sh.ascent / 3, .inr rfl, ?_, ?_, h5⟩ <;> rw [Prod.mk.injEq] <;> constructor <;> grind
    · cases hm

example : (Out.line 200 300 (205 / 2) (8 / 5) white none : Out Nat (Sym Nat)) ∈
    drawLines (text0 [.underline, .bold]) (85 + (env0.shape (face (text0 [.underline, .bold]))).baseline) (env0.shape (face (text0 [.underline, .bold]))) := by
  decide +kernel

/-- The line under a text turned by a quarter stays horizontal: the end of the turned text is elsewhere. -/
theorem C115_line_violated :
    let d := text0 [.underline, .rotation 0 0 90 none]
    let sh := env0.shape (face d)
    (Out.line 200 300 (205 / 2) (8 / 5) white none : Out Nat (Sym Nat)) ∈ (drawText env0 d fresh).1 ∧
      place (turned env0.cosSin d sh).1 sh.width (-sh.descent / 2) ≠ (300, 205 / 2) := by
  decide +kernel

/-! ## Syllables -/

private theorem collect_karaoke {color : Rgba} {p : Rat} {style : Nat} {sec : Rgba} {es : List Effect} (hp : ∀ e ∈ es, Plain e) (l : Look) :
    ∃ o s, collectAll color (es ++ [.karaoke p style sec]) l =
      some (if style = 0 then ⟨o, s, if 0 < p then color else sec, l.sweep⟩ else ⟨o, s, l.fill, some (p, sec)⟩) := by
  induction es generalizing l with
  | nil =>
    refine ⟨l.outline, l.shadow, ?_⟩
    simp only [List.nil_append, collectAll, collect]
    by_cases hst : style = 0
    · rw [if_pos hst, if_pos hst]
    · rw [if_neg hst, if_neg hst]
  | cons e es ih =>
    have hp' : ∀ e ∈ es, Plain e := fun e he => hp e (List.mem_cons_of_mem _ he)
    cases hp e List.mem_cons_self with
    | outline c x y => exact ih hp' { l with outline := some (c, x, y) }
    | shadow c x y => exact ih hp' { l with shadow := some (c, x, y) }
    | bold => exact ih hp' l
    | italic => exact ih hp' l
    | rotation z o => exact ih hp' l
    | scale x y => exact ih hp' l
    | shear x y => exact ih hp' l

/-- A syllable not yet begun is filled in the secondary colour, one that is over in the primary colour, last of all and so on top of
outline and shadow; whatever kind of karaoke it is. -/
theorem C115_syllable {env : Env G (Sym G)} (hr : Remembers env) {d : Data} {es : List Effect} (hp : ∀ e ∈ es, Plain e) {p : Rat}
    {style : Nat} {sec : Rgba} (hd : d.effects = es ++ [.karaoke p style sec]) (h : p ≤ 0 ∨ 1 ≤ p) :
    ((drawText env d fresh).1.flatMap inks).getLast?.map (·.c) = some (if p ≤ 0 then sec else d.color) := by
  have htn : (turned env.cosSin d (env.shape (face d))).2 = none := by
    cases h : (turned env.cosSin d (env.shape (face d))).2 with
    | none => rfl
    | some r =>
      obtain ⟨x, y, z, o, hm, hxy⟩ := tilted_of (cosSin := env.cosSin) (d := d) (sh := env.shape (face d))
        (t := (turned env.cosSin d (env.shape (face d))).1) (r := r) (by rw [← h])
      rw [hd] at hm
      rcases List.mem_append.1 hm with hm | hm
      · cases hp _ hm with
        | rotation z o => rcases hxy with h | h <;> exact absurd rfl h
      · cases List.mem_singleton.1 hm
  unfold drawText
  dsimp only
  cases ht : turned env.cosSin d (env.shape (face d)) with
  | mk t r =>
  rw [ht] at htn
  dsimp only at htn
  subst htn
  dsimp only
  unfold drawFlat
  dsimp only
  obtain ⟨o, s, hc⟩ := collect_karaoke (color := d.color) (p := p) (style := style) (sec := sec) hp ⟨none, none, d.color, none⟩
  have hk : ∃ k, coverageKey d t (d.y + (env.shape (face d)).baseline) = some (k,
      if style = 0 then ⟨o, s, if 0 < p then d.color else sec, none⟩ else ⟨o, s, d.color, some (p, sec)⟩) := by
    unfold coverageKey
    rw [hd, hc]
    exact ⟨_, rfl⟩
  obtain ⟨k, hk⟩ := hk
  rw [hk]
  dsimp only
  rw [show (fresh : State G (Sym G)).cov.get k = none from rfl]
  dsimp only
  obtain ⟨corner, hr⟩ := hr
  unfold emit rasterize
  dsimp only
  rw [hr]
  dsimp only
  rw [List.flatMap_append]
  generalize List.flatMap inks (_ ++ _) = front
  by_cases hst : style = 0
  · rw [if_pos hst]
    unfold emitFill
    dsimp only
    simp only [List.flatMap_cons, List.flatMap_nil, inks, List.append_nil, List.getLast?_concat, Option.map_some]
    congr 1
    by_cases h0 : p ≤ 0
    · rw [if_neg (Rat.not_lt.2 h0), if_pos h0]
    · rw [if_pos (Rat.not_le.1 h0), if_neg h0]
  · rw [if_neg hst]
    unfold emitFill
    dsimp only
    by_cases h0 : p ≤ 0
    · rw [if_pos h0, if_pos h0]
      simp only [List.flatMap_cons, List.flatMap_nil, inks, List.append_nil, List.getLast?_concat, Option.map_some]
    · have h1 : 1 ≤ p := h.resolve_left h0
      rw [if_neg h0, if_pos h1, if_neg h0]
      simp only [List.flatMap_cons, List.flatMap_nil, inks, List.append_nil, List.getLast?_concat, Option.map_some]

example : ((drawText env0 (text0 [.outline black 2 2, .karaoke 0 1 black]) fresh).1.flatMap inks).getLast?.map (·.c) = some black ∧
    ((drawText env0 (text0 [.outline black 2 2, .karaoke 1 1 black]) fresh).1.flatMap inks).getLast?.map (·.c) = some white := by
  decide +kernel

/-- The same for text painted without the cache: clipped, underlined or boxed. -/
theorem C115_syllable_vector (d : Data) (g : G) (t : Aff) {p : Rat} (style : Nat) (sec : Rgba) (h : p ≤ 0 ∨ 1 ≤ p) :
    (drawKaraoke d g t (p, style, sec) : List (Out G T)) = [.fill g t none (if p ≤ 0 then sec else d.color) (first asClip d)] := by
  unfold drawKaraoke
  dsimp only
  rw [if_neg (by grind)]
  unfold syllableColor
  by_cases h0 : p ≤ 0
  · simp only [if_pos h0]
    by_cases hst : style = 0
    · rw [if_pos hst, if_neg (Rat.not_lt.2 h0)]
    · rw [if_neg hst, if_neg (by grind)]
  · have h1 : 1 ≤ p := h.resolve_left h0
    simp only [if_neg h0]
    by_cases hst : style = 0
    · rw [if_pos hst, if_pos (Rat.not_le.1 h0)]
    · rw [if_neg hst, if_pos h1]

/-- With only a share sung and a clip, the whole syllable is filled in a colour between the two. -/
theorem C115_syllable_between {primary secondary : Rgba} {p : Rat} {style : Nat} (hst : style ≠ 0) (h0 : 0 ≤ p)
    (hb : primary.r ≤ 255 ∧ secondary.r ≤ 255) :
    min primary.r secondary.r ≤ (syllableColor primary secondary p style).r ∧
      (syllableColor primary secondary p style).r ≤ max primary.r secondary.r := by
  unfold syllableColor
  rw [if_neg hst]
  by_cases hp1 : 1 ≤ p
  · rw [if_pos hp1]; omega
  rw [if_neg hp1]
  by_cases hp0 : p ≤ 0
  · rw [if_pos hp0]; omega
  rw [if_neg hp0]
  dsimp only
  unfold lerp
  generalize primary.r = a at *
  generalize secondary.r = b at *
  have hlo : ((min a b : Nat) : Rat) ≤ (b : Rat) * (1 - p) + (a : Rat) * p := by
    have i1 : ((min a b : Nat) : Rat) ≤ (a : Rat) := Rat.natCast_le_natCast.2 (Nat.min_le_left _ _)
    have i2 : ((min a b : Nat) : Rat) ≤ (b : Rat) := Rat.natCast_le_natCast.2 (Nat.min_le_right _ _)
    have j1 := Rat.mul_le_mul_of_nonneg_right i1 h0
    have j2 := Rat.mul_le_mul_of_nonneg_right i2 (show 0 ≤ 1 - p by grind)
    grind
  have hhi : (b : Rat) * (1 - p) + (a : Rat) * p ≤ ((max a b : Nat) : Rat) := by
    have i1 : (a : Rat) ≤ ((max a b : Nat) : Rat) := Rat.natCast_le_natCast.2 (Nat.le_max_left _ _)
    have i2 : (b : Rat) ≤ ((max a b : Nat) : Rat) := Rat.natCast_le_natCast.2 (Nat.le_max_right _ _)
    have j1 := Rat.mul_le_mul_of_nonneg_right i1 h0
    have j2 := Rat.mul_le_mul_of_nonneg_right i2 (show 0 ≤ 1 - p by grind)
    grind
  have f1 : ((min a b : Nat) : Int) ≤ ((b : Rat) * (1 - p) + (a : Rat) * p).floor := by
    rw [Rat.le_floor_iff, Rat.intCast_natCast]; exact hlo
  have f2 : ((b : Rat) * (1 - p) + (a : Rat) * p).floor ≤ ((max a b : Nat) : Int) := by
    have := Rat.le_trans (Rat.floor_le ((b : Rat) * (1 - p) + (a : Rat) * p)) hhi
    rw [← Rat.intCast_natCast] at this
    exact Rat.intCast_le_intCast.1 this
  omega

example : (syllableColor ⟨200, 0, 0, 255⟩ ⟨100, 0, 0, 255⟩ (1 / 2) 1).r = 150 := by decide +kernel

/-! ## Order and clipping -/

/-- A text with a shadow and an outline is painted with its shadow below, then its outline, then its letters, all of them the letters of
its font at its size, bold and italic as asked. -/
theorem C115_order {env : Env G (Sym G)} (hr : Remembers env) {d : Data} (hp : ∀ e ∈ d.effects, Plain e) {co cs : Rgba} {wx wy sx sy : Rat}
    (hmo : Effect.outline co wx wy ∈ d.effects) (hms : Effect.shadow cs sx sy ∈ d.effects)
    (ho : d.effects.countP isOutline ≤ 1) (hs : d.effects.countP isShadow ≤ 1) :
    ((drawText env d fresh).1.flatMap inks).map (fun i => (i.c, i.stroke, i.g)) =
      [(cs, none, env.glyphs ⟨d.text, d.font, d.size, decide (Effect.bold ∈ d.effects), decide (Effect.italic ∈ d.effects)⟩ d.spacing),
        (co, some (wx, wy), env.glyphs ⟨d.text, d.font, d.size, decide (Effect.bold ∈ d.effects), decide (Effect.italic ∈ d.effects)⟩ d.spacing),
        (d.color, none, env.glyphs ⟨d.text, d.font, d.size, decide (Effect.bold ∈ d.effects), decide (Effect.italic ∈ d.effects)⟩ d.spacing)] := by
  have hface : face d = ⟨d.text, d.font, d.size, decide (Effect.bold ∈ d.effects), decide (Effect.italic ∈ d.effects)⟩ := by
    have any : ∀ e : Effect, d.effects.any (· == e) = decide (e ∈ d.effects) := by
      intro e
      rw [Bool.eq_iff_iff, List.any_eq_true, decide_eq_true_eq]
      constructor
      · rintro ⟨x, hx, hxe⟩; rw [← eq_of_beq hxe]; exact hx
      · intro h; exact ⟨e, h, beq_self_eq_true e⟩
    unfold face
    rw [any, any]
  rw [← hface]
  have fo : first asOutline d = some (co, wx, wy) := by
    have : ∀ es : List Effect, Effect.outline co wx wy ∈ es → es.countP isOutline ≤ 1 → es.findSome? asOutline = some (co, wx, wy) := by
      intro es hm hc
      induction es with
      | nil => cases hm
      | cons e es ih =>
        rw [List.countP_cons] at hc
        rcases List.mem_cons.1 hm with rfl | hm
        · rfl
        · have : es.countP isOutline ≠ 0 := by
            rw [Ne, List.countP_eq_zero]
            intro h
            exact h _ hm rfl
          have hne : isOutline e = false := by
            cases h : isOutline e with
            | false => rfl
            | true => rw [h, if_pos rfl] at hc; omega
          rw [List.findSome?_cons, show asOutline e = none by cases e <;> first | rfl | cases hne]
          exact ih hm (by omega)
    exact this _ hmo ho
  have fs : first asShadow d = some (cs, sx, sy) := by
    have : ∀ es : List Effect, Effect.shadow cs sx sy ∈ es → es.countP isShadow ≤ 1 → es.findSome? asShadow = some (cs, sx, sy) := by
      intro es hm hc
      induction es with
      | nil => cases hm
      | cons e es ih =>
        rw [List.countP_cons] at hc
        rcases List.mem_cons.1 hm with rfl | hm
        · rfl
        · have : es.countP isShadow ≠ 0 := by
            rw [Ne, List.countP_eq_zero]
            intro h
            exact h _ hm rfl
          have hne : isShadow e = false := by
            cases h : isShadow e with
            | false => rfl
            | true => rw [h, if_pos rfl] at hc; omega
          rw [List.findSome?_cons, show asShadow e = none by cases e <;> first | rfl | cases hne]
          exact ih hm (by omega)
    exact this _ hms hs
  have htn := turned_plain (cosSin := env.cosSin) hp (env.shape (face d))
  unfold drawText
  dsimp only
  cases ht : turned env.cosSin d (env.shape (face d)) with
  | mk t r =>
  rw [ht] at htn
  dsimp only at htn
  subst htn
  dsimp only
  unfold drawFlat
  dsimp only
  have hk : coverageKey d t (d.y + (env.shape (face d)).baseline) = some (⟨face d, d.spacing, (first asOutline d).map (fun o => (o.2.1, o.2.2)),
      (first asShadow d).map (fun s => (s.2.1, s.2.2)), t.moved (-d.x) (-(d.y + (env.shape (face d)).baseline))⟩,
      ⟨first asOutline d, first asShadow d, d.color, none⟩) := by
    unfold coverageKey
    rw [collect_plain hp ho hs]
    dsimp only
    rw [Option.or_none, Option.or_none]
    rfl
  rw [hk, fo, fs]
  dsimp only
  rw [show (fresh : State G (Sym G)).cov.get _ = none from rfl]
  dsimp only
  obtain ⟨corner, hr⟩ := hr
  unfold emit rasterize
  simp only [Option.map_some, Option.bind_some, hr]
  rfl

example : ((drawText env0 (text0 [.outline black 2 2, .italic, .shadow black 3 3]) fresh).1.flatMap inks).length = 3 := by decide +kernel

private theorem collect_clip {color : Rgba} {x1 y1 x2 y2 : Rat} {i : Bool} {es : List Effect} (hm : Effect.clip x1 y1 x2 y2 i ∈ es) (l : Look) :
    collectAll color es l = none := by
  induction es generalizing l with
  | nil => cases hm
  | cons e es ih =>
    unfold collectAll
    rcases List.mem_cons.1 hm with rfl | hm
    · rfl
    · cases collect color l e with
      | none => rfl
      | some l' => exact ih hm l'

/-- Everything painted for a clipped text is clipped, whatever its other effects and whatever is in the caches. -/
theorem C115_clipped (env : Env G T) {d : Data} {x1 y1 x2 y2 : Rat} {i : Bool} (hm : Effect.clip x1 y1 x2 y2 i ∈ d.effects)
    (h1 : ∀ a1 b1 a2 b2 j, Effect.clip a1 b1 a2 b2 j ∈ d.effects → (⟨a1, b1, a2, b2, j⟩ : Clip) = ⟨x1, y1, x2, y2, i⟩)
    (s : State G T) {o : Out G T} (ho : o ∈ (drawText env d s).1) : clipOf o = some ⟨x1, y1, x2, y2, i⟩ := by
  have hc : first asClip d = some ⟨x1, y1, x2, y2, i⟩ := by
    cases h : first asClip d with
    | none =>
      unfold first at h
      rw [List.findSome?_eq_none_iff] at h
      exact nomatch h _ hm
    | some c =>
      obtain ⟨e, he, hce⟩ := List.exists_of_findSome?_eq_some h
      cases e with
      | clip a1 b1 a2 b2 j => rw [← Option.some.inj hce, h1 _ _ _ _ _ he]
      | _ => cases hce
  have vec : ∀ (g : G) (t : Aff) (bl : Rat) (sh : Shaped), o ∈ (drawVector d g t bl sh s).1 → clipOf o = some ⟨x1, y1, x2, y2, i⟩ := by
    intro g t bl sh ho
    unfold drawVector at ho
    dsimp only at ho
    rcases List.mem_append.1 ho with ho | ho
    · rcases List.mem_append.1 ho with ho | ho
      · rcases List.mem_append.1 ho with ho | ho
        · rcases List.mem_append.1 ho with ho | ho
          · unfold drawShadow at ho
            split at ho
            · dsimp only at ho
              rw [hc] at ho
              rcases List.mem_append.1 ho with ho | ho
              · split at ho
                · rw [List.mem_singleton.1 ho]; rfl
                · cases ho
              · rw [List.mem_singleton.1 ho]; rfl
            · cases ho
          · obtain ⟨e, he, hoe⟩ := List.mem_flatMap.1 ho
            cases e with
            | opaqueBox c px py =>
              unfold drawBox at hoe
              dsimp only at hoe
              rw [List.mem_singleton.1 hoe]
              exact hc
            | _ => cases hoe
        · obtain ⟨e, he, hoe⟩ := List.mem_flatMap.1 ho
          cases e with
          | outline c wx wy =>
            unfold drawOutline at hoe
            dsimp only at hoe
            split at hoe
            · split at hoe
              · rw [List.mem_singleton.1 hoe]; exact hc
              · cases hoe
            · split at hoe
              · rw [List.mem_singleton.1 hoe]; exact hc
              · cases hoe
          | _ => cases hoe
      · unfold drawMain at ho
        split at ho
        · unfold drawBlurred at ho
          rw [hc] at ho
          dsimp only at ho
          rw [List.mem_singleton.1 ho]
          rfl
        · split at ho
          · unfold drawKaraoke at ho
            rw [hc, if_neg (by rintro ⟨-, -, -, h⟩; exact nomatch h)] at ho
            rw [List.mem_singleton.1 ho]
            rfl
          · rw [hc] at ho
            rw [List.mem_singleton.1 ho]
            rfl
    · unfold drawLines at ho
      rcases List.mem_append.1 ho with ho | ho
      · split at ho
        · rw [List.mem_singleton.1 ho]; exact hc
        · cases ho
      · split at ho
        · rw [List.mem_singleton.1 ho]; exact hc
        · cases ho
  unfold drawText at ho
  dsimp only at ho
  split at ho
  · unfold drawFlat at ho
    dsimp only at ho
    have hk : ∀ t bl, coverageKey d t bl = none := by
      intro t bl
      unfold coverageKey
      rw [collect_clip hm]
    rw [hk] at ho
    dsimp only at ho
    have hb : ∀ bl sh, blurHit d bl sh s = none := by
      intro bl sh
      unfold blurHit
      rw [if_neg]
      intro h
      exact nomatch List.all_eq_true.1 h _ hm
    rw [hb] at ho
    exact vec _ _ _ _ ho
  · exact vec _ _ _ _ ho

example : (drawText env0 (text0 [.clip 0 0 50 50 false, .karaoke (1 / 2) 1 black, .underline]) fresh).1.map clipOf =
    [some ⟨0, 0, 50, 50, false⟩, some ⟨0, 0, 50, 50, false⟩] := by decide +kernel

end Verif.Props
