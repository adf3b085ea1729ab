import Verif.Model.Frames
import Verif.Spec.Frames
/-!
# C143, C144 — frames as values; blending; backends
-/
namespace Verif.Props.Frames
open Verif.Frames Verif.Spec.Frames

/-! ## Frames -/

/-- Every living frame holds a buffer of the heap. -/
def Sound (w : World) : Prop := ∀ f, some f ∈ w.frames → f.ptr < w.heap.length

theorem frame_iff {w : World} {i : Nat} {f : Frame} : frame w i = some f ↔ w.frames[i]? = some (some f) := by
  unfold frame
  cases w.frames[i]? with
  | none => simp
  | some o => simp

theorem views_get {w : World} {i : Nat} {f : Frame} (h : frame w i = some f) : (views w)[i]? = some (some (view w.heap f)) := by
  unfold views
  rw [List.getElem?_map, frame_iff.1 h]
  rfl

theorem unique_of_count {α : Type} {p : α → Bool} : ∀ {l : List α} {i j : Nat} {a b : α}, l.countP p = 1 → l[i]? = some a → p a = true →
    l[j]? = some b → p b = true → i = j
  | [], i, j, a, b, hc, hi, _, _, _ => by cases hi
  | x :: l, i, j, a, b, hc, hi, ha, hj, hb => by
    rw [List.countP_cons] at hc
    have zero : ∀ {k : Nat} {c : α}, l.countP p = 0 → l[k]? = some c → p c = true → False := by
      intro k c h0 hk hp
      exact absurd hp (by simpa using List.countP_eq_zero.1 h0 c (List.mem_of_getElem? hk))
    cases i with
    | zero =>
      cases j with
      | zero => rfl
      | succ j =>
        simp only [List.getElem?_cons_zero, Option.some.injEq] at hi
        subst hi
        rw [if_pos ha] at hc
        exact (zero (by omega) hj hb).elim
    | succ i =>
      cases j with
      | zero =>
        simp only [List.getElem?_cons_zero, Option.some.injEq] at hj
        subst hj
        rw [if_pos hb] at hc
        exact (zero (by omega) hi ha).elim
      | succ j =>
        by_cases hx : p x = true
        · rw [if_pos hx] at hc
          exact (zero (by omega) hi ha).elim
        · rw [if_neg hx] at hc
          rw [unique_of_count (l := l) (i := i) (j := j) (by simpa using hc) (by simpa using hi) ha (by simpa using hj) hb]

theorem view_append {h : List (List Nat)} {b : List Nat} {f : Frame} (hf : f.ptr < h.length) : view (h ++ [b]) f = view h f := by
  unfold view
  rw [List.getElem?_append_left hf]

theorem views_append {h : List (List Nat)} {b : List Nat} {fs : List (Option Frame)} (hs : Sound ⟨h, fs⟩) :
    fs.map (fun f => f.map (view (h ++ [b]))) = fs.map (fun f => f.map (view h)) := by
  apply List.map_congr_left
  intro o ho
  cases o with
  | none => rfl
  | some f => rw [Option.map_some, Option.map_some, view_append (hs f ho)]

theorem sound_set {h : List (List Nat)} {fs : List (Option Frame)} {i : Nat} {o : Option Frame} (hs : Sound ⟨h, fs⟩)
    (ho : ∀ f, o = some f → f.ptr < h.length) : Sound ⟨h, fs.set i o⟩ := by
  intro f hf
  rcases List.mem_or_eq_of_mem_set hf with hf | hf
  · exact hs f hf
  · exact ho f hf.symm

theorem sound_grow {h : List (List Nat)} {fs : List (Option Frame)} {b : List Nat} (hs : Sound ⟨h, fs⟩) : Sound ⟨h ++ [b], fs⟩ := by
  intro f hf
  have := hs f hf
  simp only [List.length_append, List.length_cons, List.length_nil] at this ⊢
  omega

theorem sound_push {h : List (List Nat)} {fs : List (Option Frame)} {f : Frame} (hs : Sound ⟨h, fs⟩) (hf : f.ptr < h.length) :
    Sound ⟨h, fs ++ [some f]⟩ := by
  intro f' hf'
  rcases List.mem_append.1 hf' with h1 | h1
  · exact hs f' h1
  · rw [List.mem_singleton, Option.some.injEq] at h1
    rw [h1]
    exact hf

theorem views_new {h : List (List Nat)} {fs : List (Option Frame)} {i : Nat} {f : Frame} {b : List Nat} (hs : Sound ⟨h, fs⟩) :
    views ⟨h ++ [b], fs.set i (some { f with ptr := h.length })⟩ = (views ⟨h, fs⟩).set i (some { view h f with bytes := b }) := by
  unfold views
  simp only
  rw [List.map_set, views_append hs]
  congr 1
  simp [view]

theorem mutate_ok {w : World} {i : Nat} {f : Frame} (g : List Nat → List Nat) (hs : Sound w) (hf : frame w i = some f) :
    Sound (mutate w i f g) ∧
    views (mutate w i f g) = (views w).set i (some { view w.heap f with bytes := g (view w.heap f).bytes }) := by
  have hi := frame_iff.1 hf
  have hp : f.ptr < w.heap.length := hs f (List.mem_of_getElem? hi)
  unfold mutate
  dsimp only
  split
  · rename_i hc
    refine ⟨fun f' hf' => by rw [List.length_set]; exact hs f' hf', ?_⟩
    apply List.ext_getElem?
    intro j
    unfold views
    rw [List.getElem?_map, List.getElem?_set, List.getElem?_map]
    simp only
    by_cases hij : i = j
    · subst hij
      rw [if_pos rfl, hi]
      have hl : i < (w.frames.map (fun f => f.map (view w.heap))).length := by
        rw [List.length_map]
        exact (List.getElem?_eq_some_iff.1 hi).1
      rw [if_pos hl]
      simp [view, hp]
    · rw [if_neg hij]
      cases hj : w.frames[j]? with
      | none => rfl
      | some o =>
        cases o with
        | none => rfl
        | some f' =>
          have hne : f'.ptr ≠ f.ptr := by
            intro he
            refine hij (unique_of_count hc hi ?_ hj ?_)
            · simp
            · simp [he]
          simp only [Option.map_some, view]
          rw [List.getElem?_set_ne (fun h => hne h.symm)]
  · refine ⟨?_, views_new hs⟩
    apply sound_set (sound_grow hs)
    intro f' hf'
    injection hf' with hf'
    subst hf'
    simp

theorem setFormat_ok {w : World} {i : Nat} {p : Picture} (hs : Sound w) (hf : (views w)[i]? = some (some p)) :
    Sound (setFormat w i) ∧ views (setFormat w i) = (views w).set i (some { p with format := .rgba }) := by
  have : ∃ f, frame w i = some f ∧ view w.heap f = p := by
    unfold views at hf
    rw [List.getElem?_map, Option.map_eq_some_iff] at hf
    obtain ⟨o, h1, h2⟩ := hf
    cases o with
    | none => cases h2
    | some f => exact ⟨f, frame_iff.2 h1, Option.some.inj h2⟩
  obtain ⟨f, h1, rfl⟩ := this
  unfold setFormat
  rw [h1]
  have hp : f.ptr < w.heap.length := hs f (List.mem_of_getElem? (frame_iff.1 h1))
  refine ⟨sound_set hs (fun f' hf' => by injection hf' with hf'; rw [← hf']; exact hp), ?_⟩
  unfold views
  rw [List.map_set]
  rfl

theorem swap_pixel : ∀ (l : List Nat) (k : Nat), pixel .rgba (swapChunks l) k = pixel .bgra l k
  | a :: b :: c :: d :: r, 0 => rfl
  | a :: b :: c :: d :: r, k + 1 => by
    have := swap_pixel r k
    unfold pixel at this ⊢
    rw [swapChunks, show 4 * (k + 1) = 4 * k + 4 by omega]
    exact this
  | [], k => by simp [swapChunks, pixel]
  | [a], k => by cases k <;> simp [swapChunks, pixel, show ∀ k, 4 * (k + 1) = 4 * k + 3 + 1 from fun _ => by omega]
  | [a, b], k => by cases k <;> simp [swapChunks, pixel, show ∀ k, 4 * (k + 1) = 4 * k + 2 + 1 + 1 from fun _ => by omega]
  | [a, b, c], k => by cases k <;> simp [swapChunks, pixel, show ∀ k, 4 * (k + 1) = 4 * k + 1 + 1 + 1 + 1 from fun _ => by omega]

theorem alpha_pixel : ∀ (l : List Nat) (k : Nat), pixel .rgba (addAlpha l) k = pixel .rgb l k
  | a :: b :: c :: r, 0 => rfl
  | a :: b :: c :: r, k + 1 => by
    have := alpha_pixel r k
    unfold pixel at this ⊢
    rw [addAlpha, show 4 * (k + 1) = 4 * k + 4 by omega, show 3 * (k + 1) = 3 * k + 3 by omega]
    exact this
  | [], k => by simp [addAlpha, pixel]
  | [a], k => by cases k <;> simp [addAlpha, pixel, show ∀ k, 3 * (k + 1) = 3 * k + 2 + 1 from fun _ => by omega]
  | [a, b], k => by cases k <;> simp [addAlpha, pixel, show ∀ k, 3 * (k + 1) = 3 * k + 1 + 1 + 1 from fun _ => by omega]

theorem toRgba_ok {w w' : World} {i : Nat} {f : Frame} (hs : Sound w) (hf : frame w i = some f) (h : toRgba w i f = some w') :
    Sound w' ∧ ∃ q, Converted (view w.heap f) q ∧ views w' = (views w).set i (some q) := by
  have hi := views_get hf
  have hl : i < (views w).length := (List.getElem?_eq_some_iff.1 hi).1
  unfold toRgba at h
  split at h
  · rename_i hm
    injection h with h
    subst h
    refine ⟨hs, view w.heap f, ⟨hm, rfl, rfl, rfl, fun _ => rfl⟩, ?_⟩
    apply List.ext_getElem?
    intro j
    rw [List.getElem?_set]
    split
    · rename_i e
      subst e
      exact hi
    · rfl
  · rename_i hm
    injection h with h
    subst h
    obtain ⟨s1, v1⟩ := mutate_ok swapChunks hs hf
    obtain ⟨s2, v2⟩ := setFormat_ok (i := i) (p := { view w.heap f with bytes := swapChunks (view w.heap f).bytes }) s1 (by
      rw [v1, List.getElem?_set_self hl])
    refine ⟨s2, _, ⟨?_, ?_⟩, by rw [v2, v1, List.set_set]⟩
    · rfl
    · refine ⟨rfl, rfl, rfl, fun k => ?_⟩
      show pixel .rgba (swapChunks _) k = pixel f.format _ k
      rw [hm]
      exact swap_pixel _ k
  · rename_i hm
    rw [Option.map_eq_some_iff] at h
    obtain ⟨_, _, h⟩ := h
    subst h
    have s1 : Sound ⟨w.heap ++ [addAlpha ((w.heap[f.ptr]?).getD [])], w.frames.set i (some { f with ptr := w.heap.length })⟩ := by
      apply sound_set (sound_grow hs)
      intro f' hf'
      injection hf' with hf'
      subst hf'
      simp
    have v1 := views_new (i := i) (f := f) (b := addAlpha ((w.heap[f.ptr]?).getD [])) hs
    obtain ⟨s2, v2⟩ := setFormat_ok (i := i) (p := { view w.heap f with bytes := addAlpha (view w.heap f).bytes }) s1 (by
      rw [v1, List.getElem?_set_self hl]
      rfl)
    refine ⟨s2, _, ⟨?_, ?_⟩, by rw [v2, v1, List.set_set]⟩
    · rfl
    · refine ⟨rfl, rfl, rfl, fun k => ?_⟩
      show pixel .rgba (addAlpha _) k = pixel f.format _ k
      rw [hm]
      exact alpha_pixel _ k

theorem alloc_ok {w : World} (hs : Sound w) (b : List Nat) (wd h t : Nat) (m : Format) :
    Sound (alloc w b wd h t m) ∧ views (alloc w b wd h t m) = views w ++ [some ⟨b, wd, h, t, m⟩] := by
  unfold alloc
  refine ⟨sound_push (sound_grow hs) (by simp), ?_⟩
  unfold views
  simp only [List.map_append]
  rw [views_append hs]
  simp [view]

theorem step_ok {w w' : World} {o : Op} (hs : Sound w) (h : step w o = some w') : Sound w' ∧ Step (views w) o (views w') := by
  cases o with
  | new b wd ht t m =>
    injection h with h
    subst h
    exact alloc_ok hs b wd ht t m
  | empty wd ht t =>
    simp only [step, Option.map_eq_some_iff] at h
    obtain ⟨n, hn, rfl⟩ := h
    unfold size at hn
    split at hn
    · injection hn with hn
      subst hn
      exact alloc_ok hs _ wd ht t .rgba
    · cases hn
  | copy i =>
    simp only [step, Option.map_eq_some_iff] at h
    obtain ⟨f, hf, rfl⟩ := h
    refine ⟨sound_push hs (hs f (List.mem_of_getElem? (frame_iff.1 hf))), _, views_get hf, ?_⟩
    unfold views
    rw [List.map_append]
    rfl
  | retime i t =>
    simp only [step, Option.map_eq_some_iff] at h
    obtain ⟨f, hf, rfl⟩ := h
    refine ⟨sound_push (f := { f with time := t }) hs (hs f (List.mem_of_getElem? (frame_iff.1 hf))), _, views_get hf, ?_⟩
    unfold views
    rw [List.map_append]
    rfl
  | write i k b =>
    simp only [step] at h
    split at h
    · rename_i f hf
      split at h
      · rename_i hk
        injection h with h
        subst h
        obtain ⟨h1, h2⟩ := mutate_ok (fun l => l.set k b) hs hf
        exact ⟨h1, _, views_get hf, hk, h2⟩
      · cases h
    · cases h
  | toRgba i =>
    simp only [step, Option.bind_eq_some_iff] at h
    obtain ⟨f, hf, h⟩ := h
    obtain ⟨h1, q, h2, h3⟩ := toRgba_ok hs hf h
    exact ⟨h1, _, q, views_get hf, h2, h3⟩
  | drop i =>
    simp only [step, Option.map_eq_some_iff] at h
    obtain ⟨f, hf, rfl⟩ := h
    refine ⟨sound_set hs nofun, _, views_get hf, ?_⟩
    unfold views
    rw [List.map_set]
    rfl

/-- **C143, frames are values.** Whatever a program does with its frames — making, copying, giving another time, writing, converting,
dropping, in any order —, they show what they would show if no two of them shared a buffer: writing to one never changes another. -/
theorem C143_values : ∀ (ops : List Op) (w w' : World), Sound w → run w ops = some w' → Sound w' ∧ History (views w) ops (views w')
  | [], w, w', hs, h => by injection h with h; subst h; exact ⟨hs, rfl⟩
  | o :: r, w, w', hs, h => by
    rw [run, Option.bind_eq_some_iff] at h
    obtain ⟨m, h1, h2⟩ := h
    obtain ⟨sm, st⟩ := step_ok hs h1
    obtain ⟨s', hr⟩ := C143_values r m w' sm h2
    exact ⟨s', _, st, hr⟩

/-- The same from the beginning, where there is no frame. -/
theorem C143_histories (ops : List Op) (w : World) (h : run ⟨[], []⟩ ops = some w) : History [] ops (views w) :=
  (C143_values ops ⟨[], []⟩ w (fun _ h => by cases h) h).2

/-- **C143, when it goes wrong.** An action on living frames fails only by an index outside the buffer or by a size of 2³² bytes or
more. -/
theorem C143_fails {w : World} {o : Op} (h : step w o = none) :
    (∃ i k b, (o = .write i k b ∧ ∀ p, (views w)[i]? = some (some p) → p.bytes.length ≤ k)) ∨
    (∃ wd ht t, o = .empty wd ht t ∧ 2 ^ 32 ≤ wd * ht * 4) ∨
    (∃ i p, o = .toRgba i ∧ (views w)[i]? = some (some p) ∧ p.format = .rgb ∧ 2 ^ 32 ≤ p.width * p.height * 4) ∨
    (∃ i, (o = .copy i ∨ (∃ t, o = .retime i t) ∨ o = .toRgba i ∨ o = .drop i) ∧ ∀ p, (views w)[i]? ≠ some (some p)) := by
  have dead : ∀ {i}, frame w i = none → ∀ p, (views w)[i]? ≠ some (some p) := by
    intro i hn p hp
    unfold views at hp
    rw [List.getElem?_map, Option.map_eq_some_iff] at hp
    obtain ⟨a, h1, h2⟩ := hp
    cases a with
    | none => cases h2
    | some f => rw [frame_iff.2 h1] at hn; cases hn
  cases o with
  | new b wd ht t m => cases h
  | empty wd ht t =>
    simp only [step, Option.map_eq_none_iff] at h
    unfold size at h
    split at h
    · cases h
    · exact .inr (.inl ⟨wd, ht, t, rfl, by omega⟩)
  | copy i =>
    simp only [step, Option.map_eq_none_iff] at h
    exact .inr (.inr (.inr ⟨i, .inl rfl, dead h⟩))
  | retime i t =>
    simp only [step, Option.map_eq_none_iff] at h
    exact .inr (.inr (.inr ⟨i, .inr (.inl ⟨t, rfl⟩), dead h⟩))
  | write i k b =>
    left
    refine ⟨i, k, b, rfl, fun p hp => ?_⟩
    simp only [step] at h
    split at h
    · rename_i f hf
      split at h
      · cases h
      · rename_i hk
        rw [views_get hf] at hp
        injection hp with hp
        injection hp with hp
        subst hp
        simp only [view]
        omega
    · rename_i hf
      exact absurd hp (dead hf p)
  | toRgba i =>
    simp only [step] at h
    cases hf : frame w i with
    | none => exact .inr (.inr (.inr ⟨i, .inr (.inr (.inl rfl)), dead hf⟩))
    | some f =>
      rw [hf] at h
      simp only [Option.bind_some] at h
      unfold toRgba at h
      split at h
      · cases h
      · cases h
      · rename_i hm
        rw [Option.map_eq_none_iff] at h
        unfold size at h
        split at h
        · cases h
        · exact .inr (.inr (.inl ⟨i, _, rfl, views_get hf, hm, by simp only [view]; omega⟩))
  | drop i =>
    simp only [step, Option.map_eq_none_iff] at h
    exact .inr (.inr (.inr ⟨i, .inr (.inr (.inr rfl)), dead h⟩))

/-- **C143, the buffer.** Turning a frame into its buffer gives the bytes it showed, shared or not. -/
theorem C143_buffer (w : World) (i : Nat) : intoBuffer w i = ((views w)[i]?.bind id).map (·.bytes) := by
  unfold intoBuffer
  cases hf : frame w i with
  | none =>
    unfold frame at hf
    unfold views
    rw [List.getElem?_map]
    cases hh : w.frames[i]? with
    | none => rfl
    | some o =>
      rw [hh] at hf
      simp only [Option.bind_some, id] at hf
      subst hf
      rfl
  | some f =>
    rw [views_get hf]
    simp only [Option.map_some, Option.bind_some, id, view, List.map_id_fun]
    split <;> rfl

/-- A frame of one blue pixel in BGRA, its copy for another time, a write to the copy, and a conversion of the first. -/
example : (run ⟨[], []⟩ [.new [1, 2, 3, 4] 1 1 0 .bgra, .retime 0 40, .write 1 0 9, .toRgba 0]).map views =
    some [some ⟨[3, 2, 1, 4], 1, 1, 0, .rgba⟩, some ⟨[9, 2, 3, 4], 1, 1, 40, .bgra⟩] := by decide

example : Sound ⟨[[1, 2, 3, 4]], [some ⟨0, 1, 1, 0, .bgra⟩, none, some ⟨0, 1, 1, 40, .bgra⟩]⟩ := by
  intro f hf
  simp only [List.mem_cons, Option.some.injEq, List.mem_nil_iff, or_false, reduceCtorEq, false_or] at hf
  rcases hf with rfl | rfl <;> decide

/-- **C143, rows.** In a frame with whole rows, the pixel in column `x` of row `y` begins `y` strides and `x` pixels into the buffer. -/
theorem C143_rows (p : Picture) (x y : Nat) (hx : x < p.width) (hl : p.bytes.length = p.height * stride p) (hy : y < p.height) :
    y * stride p + x * bytesPerPixel p.format + bytesPerPixel p.format ≤ p.bytes.length ∧
    pixel p.format p.bytes (y * p.width + x) = pixel p.format (p.bytes.drop (y * stride p + x * bytesPerPixel p.format)) 0 := by
  have e : y * stride p + x * bytesPerPixel p.format = bytesPerPixel p.format * (y * p.width + x) := by
    unfold stride
    rw [Nat.mul_add, Nat.mul_comm x, ← Nat.mul_assoc, Nat.mul_comm (y * p.width)]
  constructor
  · rw [hl, e]
    unfold stride
    have h1 : y * p.width + x + 1 ≤ p.height * p.width := by
      have := Nat.mul_le_mul_right p.width (show y + 1 ≤ p.height by omega)
      rw [Nat.succ_mul] at this
      omega
    have h2 := Nat.mul_le_mul_left (bytesPerPixel p.format) h1
    rw [Nat.mul_add, Nat.mul_one] at h2
    rw [← Nat.mul_assoc, Nat.mul_comm (p.height * p.width)]
    exact h2
  · rw [e]
    unfold pixel bytesPerPixel
    cases p.format <;> simp only [Nat.mul_zero, List.drop_zero]

theorem clear_iff : ∀ (l : List Nat), clear l = true ↔ ∀ k c, pixel .rgba l k = some c → c.a = 0
  | a :: b :: c :: d :: r => by
    rw [clear, Bool.and_eq_true, beq_iff_eq, clear_iff r]
    have hs : ∀ k, pixel .rgba (a :: b :: c :: d :: r) (k + 1) = pixel .rgba r k := by
      intro k
      unfold pixel
      rw [show 4 * (k + 1) = 4 * k + 4 by omega]
      rfl
    constructor
    · rintro ⟨h1, h2⟩ k x hx
      cases k with
      | zero =>
        injection hx with hx
        rw [← hx]
        exact h1
      | succ k => exact h2 k x (by rw [← hs]; exact hx)
    · intro h
      exact ⟨h 0 ⟨a, b, c, d⟩ rfl, fun k x hx => h (k + 1) x (by rw [hs]; exact hx)⟩
  | [] => by simp [clear, pixel]
  | [a] => by simp only [clear, true_iff]; intro k; cases k <;> simp [pixel, show ∀ k, 4 * (k + 1) = 4 * k + 3 + 1 from fun _ => by omega]
  | [a, b] => by simp only [clear, true_iff]; intro k; cases k <;> simp [pixel, show ∀ k, 4 * (k + 1) = 4 * k + 2 + 1 + 1 from fun _ => by omega]
  | [a, b, c] => by simp only [clear, true_iff]; intro k; cases k <;> simp [pixel, show ∀ k, 4 * (k + 1) = 4 * k + 1 + 1 + 1 + 1 from fun _ => by omega]

theorem bgra_alpha (l : List Nat) (k : Nat) : (pixel .bgra l k).map (·.a) = (pixel .rgba l k).map (·.a) := by
  unfold pixel
  simp only
  generalize l.drop (4 * k) = m
  match m with
  | [] | [_] | [_, _] | [_, _, _] | _ :: _ :: _ :: _ :: _ => rfl

/-- **C143, empty frames.** A frame with an alpha channel is called empty exactly if every pixel of it is fully transparent. -/
theorem C143_empty (p : Picture) (hf : p.format ≠ .rgb) : isEmpty p = true ↔ ∀ k c, pixel p.format p.bytes k = some c → c.a = 0 := by
  unfold isEmpty
  cases hm : p.format with
  | rgb => exact absurd hm hf
  | rgba => exact clear_iff _
  | bgra =>
    show clear p.bytes = true ↔ _
    rw [clear_iff]
    have key := bgra_alpha p.bytes
    constructor
    · intro h k c hc
      have := key k
      rw [hc] at this
      obtain ⟨c', h1, h2⟩ := Option.map_eq_some_iff.1 this.symm
      exact (show c'.a = c.a from h2) ▸ h k c' h1
    · intro h k c hc
      have := key k
      rw [hc] at this
      obtain ⟨c', h1, h2⟩ := Option.map_eq_some_iff.1 this
      exact (show c'.a = c.a from h2) ▸ h k c' h1

/-- **C143, disagreement.** A frame without alpha channel and without any pixel is not called empty, but its conversion, the same
picture, is. -/
theorem C143_empty_violated : isEmpty ⟨[], 0, 0, 0, .rgb⟩ = false ∧
    (∀ k c, pixel .rgb [] k = some c → c.a = 0) ∧
    (run ⟨[], []⟩ [.new [] 0 0 0 .rgb, .toRgba 0]).map (fun w => (views w).map (fun p => p.map isEmpty)) = some [some true] := by
  refine ⟨rfl, fun k c h => ?_, by decide⟩
  simp [pixel] at h

/-- **C143, disagreement.** The size of an empty frame is computed in 32 bits: for 32768 by 32768 pixels, which is 4 GiB, it
overflows. -/
theorem C143_size_violated : step ⟨[], []⟩ (.empty 32768 32768 0) = none := by decide

/-! ## Blending -/

theorem channel_eq {s d a : Nat} (hs : s ≤ 255) (hd : d ≤ 255) (ha : a ≤ 255) :
    channel s d a = (s * a + d * (255 - a) + 255) / 256 ∧ (s * a + d * (255 - a) + 255) / 256 ≤ 255 := by
  have h1 : s * a ≤ 255 * a := Nat.mul_le_mul_right _ hs
  have h2 : d * (255 - a) ≤ 255 * (255 - a) := Nat.mul_le_mul_right _ hd
  unfold channel
  generalize s * a = u at *
  generalize d * (255 - a) = v at *
  omega

/-- A colour of bytes. -/
def Bytes (p : Px) : Prop := p.r ≤ 255 ∧ p.g ≤ 255 ∧ p.b ≤ 255 ∧ p.a ≤ 255

/-- **C144, extremes.** A transparent colour changes nothing, an opaque one replaces what is below. -/
theorem C144_extremes (src dst : Px) (hs : Bytes src) (hd : Bytes dst) :
    (src.a = 0 → alphaBlend src dst = dst) ∧ (src.a = 255 → alphaBlend src dst = src) := by
  obtain ⟨r, g, b, a⟩ := src
  obtain ⟨r', g', b', a'⟩ := dst
  obtain ⟨h1, h2, h3, h4⟩ := hs
  obtain ⟨k1, k2, k3, k4⟩ := hd
  simp only at *
  unfold alphaBlend
  refine ⟨fun h => by rw [if_pos h], fun h => ?_⟩
  subst h
  simp only [show (255 : Nat) ≠ 0 by omega, if_false, true_and]
  split
  · rfl
  · have key : ∀ x, x ≤ 255 → ∀ y, channel x y 255 = x := by
      intro x hx y
      unfold channel
      rw [Nat.sub_self, Nat.mul_zero, Nat.add_zero, show (x * 255 + 255) / 256 = x from Nat.div_eq_of_lt_le (by omega) (by omega)]
      omega
    rw [key r h1, key g h2, key b h3, key 255 (Nat.le_refl _)]

/-- **C144, channels.** Each channel of the result lies between the two it comes from, and less than one from the exact mean weighted by
the alpha above; the alpha is at least either alpha.  `N` is 255 times the exact mean. -/
theorem C144_between (s d a : Nat) (hs : s ≤ 255) (hd : d ≤ 255) (ha : a ≤ 255) :
    min s d ≤ channel s d a ∧ channel s d a ≤ max s d ∧
    (let N := s * a + d * (255 - a); 255 * channel s d a < N + 255 ∧ N < 255 * channel s d a + 255) := by
  rw [(channel_eq hs hd ha).1]
  dsimp only
  have lo : min s d * 255 ≤ s * a + d * (255 - a) := by
    have h1 : min s d * a ≤ s * a := Nat.mul_le_mul_right _ (Nat.min_le_left _ _)
    have h2 : min s d * (255 - a) ≤ d * (255 - a) := Nat.mul_le_mul_right _ (Nat.min_le_right _ _)
    have h3 : min s d * 255 = min s d * a + min s d * (255 - a) := by rw [← Nat.mul_add]; congr 1; omega
    omega
  have hi : s * a + d * (255 - a) ≤ max s d * 255 := by
    have h1 : s * a ≤ max s d * a := Nat.mul_le_mul_right _ (Nat.le_max_left _ _)
    have h2 : d * (255 - a) ≤ max s d * (255 - a) := Nat.mul_le_mul_right _ (Nat.le_max_right _ _)
    have h3 : max s d * 255 = max s d * a + max s d * (255 - a) := by rw [← Nat.mul_add]; congr 1; omega
    omega
  generalize s * a + d * (255 - a) = N at *
  omega

/-- `c` lies between `s` and `d` and less than one from their exact mean, weighted by `a` and the rest to 255. -/
def Near (s d a c : Nat) : Prop :=
  min s d ≤ c ∧ c ≤ max s d ∧ 255 * c < s * a + d * (255 - a) + 255 ∧ s * a + d * (255 - a) < 255 * c + 255

/-- **C144, blending.** Every channel of a blended colour is the mean of the two channels weighted by the alpha above, to less than one
step; so is the alpha, with full alpha above. -/
theorem C144_blend (src dst : Px) (hs : Bytes src) (hd : Bytes dst) :
    Near src.r dst.r src.a (alphaBlend src dst).r ∧ Near src.g dst.g src.a (alphaBlend src dst).g ∧
    Near src.b dst.b src.a (alphaBlend src dst).b ∧ Near 255 dst.a src.a (alphaBlend src dst).a := by
  obtain ⟨h1, h2, h3, h4⟩ := hs
  obtain ⟨k1, k2, k3, k4⟩ := hd
  unfold alphaBlend
  split
  · next h =>
    have key : ∀ s d, Near s d src.a d := by
      intro s d
      unfold Near
      rw [h]
      omega
    exact ⟨key _ _, key _ _, key _ _, key _ _⟩
  · split
    · next h =>
      have key : ∀ s d, Near s d src.a s := by
        intro s d
        unfold Near
        rw [h.1]
        omega
      refine ⟨key _ _, key _ _, key _ _, ?_⟩
      have := key 255 dst.a
      rw [h.1] at this ⊢
      exact this
    · exact ⟨C144_between _ _ _ h1 k1 h4, C144_between _ _ _ h2 k2 h4, C144_between _ _ _ h3 k3 h4,
        C144_between _ _ _ (Nat.le_refl _) k4 h4⟩

example : Bytes ⟨200, 0, 100, 128⟩ ∧ (alphaBlend ⟨200, 0, 100, 128⟩ ⟨0, 0, 0, 0⟩).r = 100 := by unfold Bytes; decide

/-- **C144, alpha.** Above a colour that is not transparent the alpha of the result is at least either alpha. -/
theorem C144_alpha (src dst : Px) (hs : Bytes src) (hd : Bytes dst) :
    src.a ≤ (alphaBlend src dst).a ∧ dst.a ≤ (alphaBlend src dst).a ∧ Bytes (alphaBlend src dst) := by
  obtain ⟨r, g, b, a⟩ := src
  obtain ⟨r', g', b', a'⟩ := dst
  obtain ⟨h1, h2, h3, h4⟩ := hs
  obtain ⟨k1, k2, k3, k4⟩ := hd
  simp only at *
  unfold alphaBlend
  simp only
  split
  · exact ⟨by simp only; omega, Nat.le_refl _, k1, k2, k3, k4⟩
  · split
    · exact ⟨Nat.le_refl _, by simp only; omega, h1, h2, h3, h4⟩
    · have e := channel_eq (s := 255) (Nat.le_refl _) k4 h4
      refine ⟨?_, ?_, ?_, ?_, ?_, ?_⟩
      · simp only
        rw [e.1]
        have : 0 ≤ a' * (255 - a) := Nat.zero_le _
        generalize a' * (255 - a) = u at *
        omega
      · simp only
        rw [e.1]
        have e1 : a' * (255 - a) = a' * 255 - a' * a := Nat.mul_sub _ _ _
        have e2 : a' * a ≤ 255 * a := Nat.mul_le_mul_right _ k4
        have e3 : a' * a ≤ a' * 255 := Nat.mul_le_mul_left _ h4
        rw [e1]
        have e4 : a' ≤ 255 ∧ 255 * a - a' * a + (255 - a') ≥ 0 := ⟨k4, Nat.zero_le _⟩
        generalize a' * a = u at *
        omega
      · simp only; rw [(channel_eq h1 k1 h4).1]; exact (channel_eq h1 k1 h4).2
      · simp only; rw [(channel_eq h2 k2 h4).1]; exact (channel_eq h2 k2 h4).2
      · simp only; rw [(channel_eq h3 k3 h4).1]; exact (channel_eq h3 k3 h4).2
      · simp only; rw [e.1]; exact e.2

example : alphaBlend ⟨255, 0, 100, 128⟩ ⟨0, 255, 100, 255⟩ = ⟨128, 127, 100, 255⟩ := by decide

/-- **C144, order.** A brighter colour, above or below, never gives a darker result. -/
theorem C144_monotone {s s' d d' a : Nat} (h1 : s ≤ s') (h2 : d ≤ d') (hs : s' ≤ 255) (hd : d' ≤ 255) (ha : a ≤ 255) :
    channel s d a ≤ channel s' d' a := by
  rw [(channel_eq (Nat.le_trans h1 hs) (Nat.le_trans h2 hd) ha).1, (channel_eq hs hd ha).1]
  have k1 : s * a ≤ s' * a := Nat.mul_le_mul_right _ h1
  have k2 : d * (255 - a) ≤ d' * (255 - a) := Nat.mul_le_mul_right _ h2
  exact Nat.div_le_div_right (by omega)

/-- **C144, disagreement.** Compositing layers with the function of the pipeline shows none of them, whatever they are. -/
theorem C144_layers_violated {L : Type} (layers : List L) (w h : Nat) (out : List Nat) (ho : compositeLayers layers w h = some out) :
    ∀ b ∈ out, b = 0 := by
  unfold compositeLayers at ho
  rw [Option.map_eq_some_iff] at ho
  obtain ⟨n, _, rfl⟩ := ho
  have : ∀ (l : List L) (o : List Nat), l.foldl (fun out _ => out) o = o := by
    intro l
    induction l with
    | nil => intro o; rfl
    | cons x l ih => intro o; exact ih o
  rw [this]
  exact fun b hb => List.eq_of_mem_replicate hb

/-! ## Backends -/

/-- **C144, backends.** Probing gives the first backend of the order that is built in and can be made; it fails exactly if there is
none. -/
theorem C144_probe {B : Type} (f : Features) (make : Backend → Option B) (order : List Backend) (x : B) :
    (probe f make order = some x ↔ ∃ pre b post, order = pre ++ b :: post ∧ tryCreate f make b = some x ∧ ∀ c ∈ pre, tryCreate f make c = none) ∧
    (probe f make order = none ↔ ∀ c ∈ order, tryCreate f make c = none) := by
  induction order with
  | nil =>
    refine ⟨⟨nofun, ?_⟩, by simp [probe]⟩
    rintro ⟨pre, b, post, h, _⟩
    cases pre <;> cases h
  | cons c r ih =>
    rw [probe]
    cases hc : tryCreate f make c with
    | some y =>
      refine ⟨⟨fun h => ⟨[], c, r, rfl, by injection h with h; rw [hc, h], nofun⟩, ?_⟩, ?_⟩
      · rintro ⟨pre, b, post, h, hb, hp⟩
        cases pre with
        | nil =>
          injection h with h _
          subst h
          rw [hc] at hb
          exact hb
        | cons z pre =>
          injection h with h _
          subst h
          rw [hp c (by simp)] at hc
          cases hc
      · simp [hc]
    | none =>
      simp only
      refine ⟨ih.1.trans ⟨?_, ?_⟩, ?_⟩
      · rintro ⟨pre, b, post, rfl, hb, hp⟩
        exact ⟨c :: pre, b, post, rfl, hb, fun z hz => (List.mem_cons.1 hz).elim (fun e => e ▸ hc) (hp z)⟩
      · rintro ⟨pre, b, post, h, hb, hp⟩
        cases pre with
        | nil =>
          injection h with h _
          subst h
          rw [hc] at hb
          cases hb
        | cons z pre =>
          injection h with _ h
          exact ⟨pre, b, post, h, hb, fun y hy => hp y (List.mem_cons_of_mem _ hy)⟩
      · rw [ih.2]
        simp [hc]

/-- **C144, disagreement.** A backend is called available as soon as it is built in, though it may be impossible to make; and probing
for `Auto` finds nothing, though `Auto` can be made. -/
theorem C144_available_violated : availableBackends ⟨true, true⟩ (prober ⟨true, true⟩) = [.software, .gpu] ∧
    probe ⟨true, true⟩ (fun _ => (none : Option Unit)) (prober ⟨true, true⟩) = none ∧
    createBackend ⟨true, false⟩ (fun _ => some ()) .auto = some () ∧ probe ⟨true, false⟩ (fun _ => some ()) [.auto] = none := by decide

/-- **C144, backends.** What `create_backend` makes for a named backend is what probing for it alone makes; and in a build with the
software backend that can be made, `Auto` and probing in the usual order give it. -/
theorem C144_create {B : Type} (f : Features) (make : Backend → Option B) :
    (∀ b, b ≠ .auto → createBackend f make b = probe f make [b]) ∧
    (∀ x, f.software = true → make .software = some x → createBackend f make .auto = some x ∧ probe f make (prober f) = some x) := by
  constructor
  · intro b hb
    cases b with
    | auto => exact absurd rfl hb
    | software => simp only [createBackend, probe, tryCreate, available]; split <;> (try simp_all); cases make _ <;> rfl
    | gpu => simp only [createBackend, probe, tryCreate, available]; split <;> (try simp_all); cases make _ <;> rfl
  · intro x h1 h2
    simp [createBackend, probe, prober, tryCreate, available, h1, h2]

end Verif.Props.Frames
