import Verif.Lemmas.Place
/-!
# C104 — placing lines of text
-/
namespace Verif.Props
open Verif Verif.Place Verif.Spec.Place
open Verif.Drawing (Pt)

theorem line_free {num : Str → Option Rat} {p : Pipe} {e : Ev} {time : Nat} {s : Style} {a : Nat} {c r : Part} {ml mr mv : Rat}
    (n0 : num [] = none) (n1 : num ['0'] = some 0) (hz : ∀ f ∈ [e.marginL, e.marginR, e.marginV], num f = some 0 → f = ['0'])
    (hn : Numpad a c r) (hs : p.styles.get e.style = some s) (hy : p.resY ≠ 0)
    (h1 : MarginIs num e.marginL s.marginL ml) (h2 : MarginIs num e.marginR s.marginR mr) (h3 : MarginIs num e.marginV s.marginV mv)
    (hc : c = .middle → ml = mr) {rs : List Run} (hne : rs ≠ []) (hm : Measured rs)
    (hfree : ∀ q ∈ rs, q.pos = none ∧ q.move = none ∧ Aligned a s q) (n i : Nat) (lh off : Rat) :
    ∃ ps x, runs num p e time (defaultAlignment (styleOf p e.style)) ⟨decide (rs.length > 1), total rs, n, i, lh, off⟩ none rs = .ok ps ∧
      Follow x rs ps ∧ c.of x (len rs) = c.of (ml * p.sx) ((p.w : Rat) - mr * p.sx - ml * p.sx) ∧
      ∀ q ∈ rs.zip ps, r.of q.2.2 (if n > 1 then lh else q.1.height) =
        adjusted ⟨decide (rs.length > 1), total rs, n, i, lh, off⟩ a (r.of (mv * p.sy) ((p.h : Rat) - mv * p.sy - mv * p.sy)) := by
  have g1 := margin_is n0 n1 (hz _ (by simp)) h1
  have g2 := margin_is n0 n1 (hz _ (by simp)) h2
  have g3 := margin_is n0 n1 (hz _ (by simp)) h3
  obtain ⟨p1, p2⟩ := posAlign_parts (num := num) hn hs hy g1 g2 g3 hc
  have hst : styleOf p e.style = some s := by unfold styleOf; rw [hs]; rfl
  rw [hst]
  cases rs with
  | nil => exact absurd rfl hne
  | cons q rs =>
    have hw := width_eq hm
    generalize hl : (⟨decide ((q :: rs).length > 1), total (q :: rs), n, i, lh, off⟩ : Layout) = l at *
    have hlm : l.multi = decide ((q :: rs).length > 1) := by rw [← hl]
    have hlt : l.total = total (q :: rs) := by rw [← hl]
    have hln : l.lines = n := by rw [← hl]
    have hlh : l.lineHeight = lh := by rw [← hl]
    have seg : ∀ q' ∈ q :: rs, ∀ pen, positionSegment num p e time (defaultAlignment (some s)) l q' pen =
        (match pen with
         | none => .ok (alignOffset ((posAlign num p a e).1, adjusted l a (posAlign num p a e).2) (if l.multi then l.total else q'.width)
            (if l.lines > 1 then l.lineHeight else q'.height) a, some (alignOffset ((posAlign num p a e).1,
            adjusted l a (posAlign num p a e).2) (if l.multi then l.total else q'.width)
            (if l.lines > 1 then l.lineHeight else q'.height) a).1)
         | some x => .ok ((x, (alignOffset ((posAlign num p a e).1, adjusted l a (posAlign num p a e).2) q'.width
            (if l.lines > 1 then l.lineHeight else q'.height) a).2), some x)) := by
      intro q' hq' pen
      obtain ⟨f1, f2, f3⟩ := hfree q' hq'
      unfold positionSegment
      rw [f1, f2, aligned_eq hn f3]
      rfl
    obtain ⟨ps, k1, k2, k3⟩ := line_follow (num := num) (p := p) (e := e) (time := time) (dflt := defaultAlignment (some s)) (l := l)
      (fun q' y => r.of y (if n > 1 then lh else q'.height) =
        adjusted l a (r.of (mv * p.sy) ((p.h : Rat) - mv * p.sy - mv * p.sy))) q rs
      (alignOffset ((posAlign num p a e).1, adjusted l a (posAlign num p a e).2) (len (q :: rs))
        (if n > 1 then lh else q.height) a).1
      (by
        refine ⟨(alignOffset ((posAlign num p a e).1, adjusted l a (posAlign num p a e).2) (len (q :: rs))
          (if n > 1 then lh else q.height) a).2, ?_, ?_⟩
        · rw [seg q List.mem_cons_self none]
          dsimp only
          rw [hln, hlh, hlm, hlt, hw]
        · rw [(offset_parts hn _ _ _).2, p2])
      (by
        intro q' hq' x
        refine ⟨(alignOffset ((posAlign num p a e).1, adjusted l a (posAlign num p a e).2) q'.width
          (if l.lines > 1 then l.lineHeight else q'.height) a).2, ?_, ?_⟩
        · rw [seg q' (List.mem_cons_of_mem _ hq') (some x)]
        · rw [hln, hlh, (offset_parts hn _ _ _).2, p2])
    refine ⟨ps, _, k1, k2, ?_, k3⟩
    rw [(offset_parts hn _ _ _).1, p1]

/-- **C104.** A single line that is not pinned stands at the place of its alignment: its left edge, middle or right edge at that of the
frame between the margins, and top, middle or bottom likewise; its runs follow one another.  A centred line needs equal margins, and
zero margins of the event must be written `0`.
Missing: styles that do not exist (`C104_default_violated`), zero margins written otherwise (`C104_zero_violated`), centring
between unequal margins (`C104_centre_violated`) and stretched runs (`C104_stretched_violated`). -/
theorem C104_alone_partial {num : Str → Option Rat} {p : Pipe} {e : Ev} {time : Nat} {s : Style} {a : Nat} {c r : Part} {ml mr mv : Rat}
    (n0 : num [] = none) (n1 : num ['0'] = some 0) (hz : ∀ f ∈ [e.marginL, e.marginR, e.marginV], num f = some 0 → f = ['0'])
    (hn : Numpad a c r) (hs : p.styles.get e.style = some s) (hy : p.resY ≠ 0)
    (h1 : MarginIs num e.marginL s.marginL ml) (h2 : MarginIs num e.marginR s.marginR mr) (h3 : MarginIs num e.marginV s.marginV mv)
    (hc : c = .middle → ml = mr) {rs : List Run} (hne : rs ≠ []) (hm : Measured rs)
    (hfree : ∀ q ∈ rs, q.pos = none ∧ q.move = none ∧ Aligned a s q) (lh : Rat) :
    ∃ ps x, place num p e time lh [rs] = .ok [ps] ∧ Follow x rs ps ∧
      c.of x (len rs) = c.of (ml * ((p.w : Rat) / p.resX)) ((p.w : Rat) - mr * ((p.w : Rat) / p.resX) - ml * ((p.w : Rat) / p.resX)) ∧
      ∀ q ∈ rs.zip ps, r.of q.2.2 q.1.height =
        r.of (mv * ((p.h : Rat) / p.resY)) ((p.h : Rat) - mv * ((p.h : Rat) / p.resY) - mv * ((p.h : Rat) / p.resY)) := by
  obtain ⟨ps, x, k1, k2, k3, k4⟩ := line_free (time := time) n0 n1 hz hn hs hy h1 h2 h3 hc hne hm hfree 1 0 lh 0
  refine ⟨ps, x, ?_, k2, k3, ?_⟩
  · unfold place
    rw [lineLoop]
    rw [show [rs].length = 1 from rfl, k1]
    rfl
  · intro q hq
    have := k4 q hq
    simpa [adjusted, Pipe.sy] using this

theorem loop_get {num : Str → Option Rat} {p : Pipe} {e : Ev} {time dflt n : Nat} {lh : Rat} {ls : List (List Run)} {Q : Nat → List Run → List Pt → Prop}
    (i0 : Nat) (off : Rat)
    (h : ∀ i rs, ls[i]? = some rs → ∃ ps, runs num p e time dflt ⟨decide (rs.length > 1), total rs, n, i0 + i, lh, off + (i : Rat) * lh⟩ none rs = .ok ps ∧ Q (i0 + i) rs ps) :
    ∃ pss, lineLoop num p e time dflt n lh i0 off ls = .ok pss ∧ pss.length = ls.length ∧
      ∀ i rs ps, ls[i]? = some rs → pss[i]? = some ps → Q (i0 + i) rs ps := by
  induction ls generalizing i0 off with
  | nil => exact ⟨[], rfl, rfl, fun i rs ps h => by cases i <;> cases h⟩
  | cons l ls ih =>
    obtain ⟨ps, h1, h2⟩ := h 0 l rfl
    have e0 : off + ((0 : Nat) : Rat) * lh = off := by grind
    rw [e0, Nat.add_zero] at h1
    rw [Nat.add_zero] at h2
    obtain ⟨pss, h3, h4, h5⟩ := ih (i0 + 1) (off + lh) (by
      intro i rs hi
      obtain ⟨ps, g1, g2⟩ := h (i + 1) rs (by simpa using hi)
      refine ⟨ps, ?_, ?_⟩
      · have e1 : i0 + 1 + i = i0 + (i + 1) := by omega
        have e2 : off + lh + (i : Rat) * lh = off + ((i + 1 : Nat) : Rat) * lh := by
          rw [Rat.natCast_add]
          have : ((1 : Nat) : Rat) = 1 := rfl
          grind
        rw [e1, e2]
        exact g1
      · rw [show i0 + 1 + i = i0 + (i + 1) by omega]
        exact g2)
    refine ⟨ps :: pss, ?_, by simp [h4], ?_⟩
    · rw [lineLoop, h1]
      dsimp only
      rw [h3]
    · intro i rs ps' hi hp
      cases i with
      | zero =>
        cases hi
        cases hp
        exact h2
      | succ i =>
        have := h5 i rs ps' (by simpa using hi) (by simpa using hp)
        rwa [show i0 + 1 + i = i0 + (i + 1) by omega] at this

/-- **C104.** Several lines that are not pinned form a block: each is one line height below the one before, the whole block stands at
the place of its alignment, and so does each line horizontally.
Missing: the same as for a single line (`C104_default_violated`, `C104_zero_violated`, `C104_centre_violated`,
`C104_stretched_violated`). -/
theorem C104_block_partial {num : Str → Option Rat} {p : Pipe} {e : Ev} {time : Nat} {s : Style} {a : Nat} {c r : Part} {ml mr mv : Rat}
    (n0 : num [] = none) (n1 : num ['0'] = some 0) (hz : ∀ f ∈ [e.marginL, e.marginR, e.marginV], num f = some 0 → f = ['0'])
    (hn : Numpad a c r) (hs : p.styles.get e.style = some s) (hy : p.resY ≠ 0)
    (h1 : MarginIs num e.marginL s.marginL ml) (h2 : MarginIs num e.marginR s.marginR mr) (h3 : MarginIs num e.marginV s.marginV mv)
    (hc : c = .middle → ml = mr) {ls : List (List Run)} (hlen : 1 < ls.length) (hne : ∀ rs ∈ ls, rs ≠ []) (hm : ∀ rs ∈ ls, Measured rs)
    (hfree : ∀ rs ∈ ls, ∀ q ∈ rs, q.pos = none ∧ q.move = none ∧ Aligned a s q) (lh : Rat) :
    ∃ pss top, place num p e time lh ls = .ok pss ∧ pss.length = ls.length ∧
      r.of top ((ls.length : Rat) * lh) =
        r.of (mv * ((p.h : Rat) / p.resY)) ((p.h : Rat) - mv * ((p.h : Rat) / p.resY) - mv * ((p.h : Rat) / p.resY)) ∧
      ∀ (i : Nat) rs ps, ls[i]? = some rs → pss[i]? = some ps → (∀ q ∈ ps, q.2 = top + (i : Rat) * lh) ∧
        ∃ x, Follow x rs ps ∧ c.of x (len rs) =
          c.of (ml * ((p.w : Rat) / p.resX)) ((p.w : Rat) - mr * ((p.w : Rat) / p.resX) - ml * ((p.w : Rat) / p.resX)) := by
  generalize hn' : ls.length = n at hlen
  have hadj : ∃ top, r.of top ((n : Rat) * lh) =
      r.of (mv * ((p.h : Rat) / p.resY)) ((p.h : Rat) - mv * ((p.h : Rat) / p.resY) - mv * ((p.h : Rat) / p.resY)) ∧
      ∀ (i : Nat) (l : Layout) (y : Rat), i < n → l.lines = n → l.index = i → l.lineHeight = lh → l.offset = 0 + (i : Rat) * lh →
        r.of y lh = adjusted l a (r.of (mv * p.sy) ((p.h : Rat) - mv * p.sy - mv * p.sy)) → y = top + (i : Rat) * lh := by
    have hsy : p.sy = (p.h : Rat) / p.resY := rfl
    rw [← hsy]
    generalize hv : r.of (mv * p.sy) ((p.h : Rat) - mv * p.sy - mv * p.sy) = v
    have cast : ∀ i, i < n → ((n - 1 - i : Nat) : Rat) = (n : Rat) - 1 - (i : Rat) := by
      intro i hi
      have e : ((n - 1 - i : Nat) : Rat) + 1 + (i : Rat) = (n : Rat) := by
        have : ((1 : Nat) : Rat) = 1 := rfl
        rw [← this, ← Rat.natCast_add, ← Rat.natCast_add]
        congr 1
        omega
      grind
    have hbot : r = .last → ∃ top, r.of top ((n : Rat) * lh) = v ∧ ∀ (i : Nat) (l : Layout) (y : Rat), i < n → l.lines = n →
        l.index = i → l.lineHeight = lh → l.offset = 0 + (i : Rat) * lh → r.of y lh = adjusted l a v → y = top + (i : Rat) * lh := by
      rintro rfl
      refine ⟨v - (n : Rat) * lh, by simp only [Part.of]; grind, ?_⟩
      intro i l y hi e1 e2 e3 e4 h
      have ha : 1 ≤ a ∧ a ≤ 3 := by cases hn <;> decide
      unfold adjusted at h
      rw [if_pos (by omega), if_pos ha, e1, e2, e3, cast i hi] at h
      simp only [Part.of] at h
      grind
    have hmid : r = .middle → ∃ top, r.of top ((n : Rat) * lh) = v ∧ ∀ (i : Nat) (l : Layout) (y : Rat), i < n → l.lines = n →
        l.index = i → l.lineHeight = lh → l.offset = 0 + (i : Rat) * lh → r.of y lh = adjusted l a v → y = top + (i : Rat) * lh := by
      rintro rfl
      refine ⟨v - (n : Rat) * lh / 2, by simp only [Part.of]; grind, ?_⟩
      intro i l y hi e1 e2 e3 e4 h
      have ha : ¬ (1 ≤ a ∧ a ≤ 3) := by cases hn <;> decide
      have hb : ¬ (7 ≤ a ∧ a ≤ 9) := by cases hn <;> decide
      unfold adjusted at h
      rw [if_pos (by omega), if_neg ha, if_neg hb, e1, e3, e4] at h
      simp only [Part.of] at h
      grind
    have htop : r = .first → ∃ top, r.of top ((n : Rat) * lh) = v ∧ ∀ (i : Nat) (l : Layout) (y : Rat), i < n → l.lines = n →
        l.index = i → l.lineHeight = lh → l.offset = 0 + (i : Rat) * lh → r.of y lh = adjusted l a v → y = top + (i : Rat) * lh := by
      rintro rfl
      refine ⟨v, rfl, ?_⟩
      intro i l y hi e1 e2 e3 e4 h
      have ha : ¬ (1 ≤ a ∧ a ≤ 3) := by cases hn <;> decide
      have hb : 7 ≤ a ∧ a ≤ 9 := by cases hn <;> decide
      unfold adjusted at h
      rw [if_pos (by omega), if_neg ha, if_pos hb, e4] at h
      simp only [Part.of] at h
      grind
    cases r with
    | first => exact htop rfl
    | middle => exact hmid rfl
    | last => exact hbot rfl
  obtain ⟨top, t1, t2⟩ := hadj
  obtain ⟨pss, k1, k2, k3⟩ := loop_get (num := num) (p := p) (e := e) (time := time) (dflt := defaultAlignment (styleOf p e.style))
    (n := n) (lh := lh) (ls := ls)
    (Q := fun (i : Nat) rs ps => (∀ q ∈ ps, q.2 = top + (i : Rat) * lh) ∧ ∃ x, Follow x rs ps ∧ c.of x (len rs) =
          c.of (ml * ((p.w : Rat) / p.resX)) ((p.w : Rat) - mr * ((p.w : Rat) / p.resX) - ml * ((p.w : Rat) / p.resX))) 0 0 (by
      intro i rs hi
      have hrs : rs ∈ ls := List.mem_of_getElem? hi
      have hin : i < n := by
        rw [← hn']
        exact (List.getElem?_eq_some_iff.1 hi).1
      obtain ⟨ps, x, g1, g2, g3, g4⟩ := line_free (time := time) n0 n1 hz hn hs hy h1 h2 h3 hc (hne rs hrs) (hm rs hrs) (hfree rs hrs)
        n i lh (0 + (i : Rat) * lh)
      rw [Nat.zero_add]
      refine ⟨ps, g1, ?_, x, g2, g3⟩
      -- every position belongs to a run
      have hbel : ∀ (x : Rat) (rs : List Run) (ps : List (Rat × Rat)), Follow x rs ps → ∀ q ∈ ps, ∃ r', (r', q) ∈ rs.zip ps := by
        intro x rs
        induction rs generalizing x with
        | nil =>
          intro ps h
          cases ps with
          | nil => intro q hq; cases hq
          | cons _ _ => exact h.elim
        | cons r' rs ih =>
          intro ps h
          cases ps with
          | nil => exact h.elim
          | cons q' ps =>
            intro q hq
            rcases List.mem_cons.1 hq with rfl | hq
            · exact ⟨r', List.mem_cons_self⟩
            · obtain ⟨r'', h2⟩ := ih _ ps h.2 q hq
              exact ⟨r'', List.mem_cons_of_mem _ h2⟩
      intro q hq
      obtain ⟨r', hr'⟩ := hbel x rs ps g2 q hq
      have := g4 (r', q) hr'
      rw [if_pos hlen] at this
      exact t2 i _ q.2 hin rfl rfl rfl rfl this)
  refine ⟨pss, top, ?_, k2.trans hn', t1, ?_⟩
  · unfold place
    rw [hn']
    exact k1
  · intro i rs ps hi hp
    have := k3 i rs ps hi hp
    rwa [Nat.zero_add] at this

/-- **C104.** A single line that is pinned stands with the point its alignment names where `\pos` says, or where `\move` has brought it:
from the first point at its beginning to the second at its end, at constant speed.
Missing: several lines that are pinned, which are drawn over each other (`C104_pinned_lines_violated`), and stretched runs
(`C104_stretched_violated`). -/
theorem C104_pinned_partial {num : Str → Option Rat} {p : Pipe} {e : Ev} {time : Nat} {s : Style} {a : Nat} {c r : Part} {at_ : Pt}
    (hn : Numpad a c r) (hs : p.styles.get e.style = some s)
    (hx : (p.layout.getD (p.resX, p.resY)).1 ≠ 0 ∧ p.resX ≠ 0) (hy : (p.layout.getD (p.resX, p.resY)).2 ≠ 0 ∧ p.resY ≠ 0)
    {rs : List Run} (hne : rs ≠ []) (hm : Measured rs)
    (hpin : ∀ q ∈ rs, Pinned p e time q at_ ∧ Aligned a s q ∧ ∀ m, q.move = some m → e.start + m.t1 < 2 ^ 32 ∧ e.start + m.t2 < 2 ^ 32)
    (lh : Rat) :
    ∃ ps x, place num p e time lh [rs] = .ok [ps] ∧ Follow x rs ps ∧ c.of x (len rs) = at_.1 ∧
      ∀ q ∈ rs.zip ps, r.of q.2.2 q.1.height = at_.2 := by
  have hst : styleOf p e.style = some s := by unfold styleOf; rw [hs]; rfl
  cases rs with
  | nil => exact absurd rfl hne
  | cons q rs =>
    have hw := width_eq hm
    generalize hl : (⟨decide ((q :: rs).length > 1), total (q :: rs), 1, 0, lh, 0⟩ : Layout) = l at *
    have hlm : l.multi = decide ((q :: rs).length > 1) := by rw [← hl]
    have hlt : l.total = total (q :: rs) := by rw [← hl]
    have seg : ∀ q' ∈ q :: rs, ∀ pen, positionSegment num p e time (defaultAlignment (some s)) l q' pen =
        (match pen with
         | none => .ok (alignOffset at_ (if l.multi then l.total else q'.width) q'.height a,
            some (alignOffset at_ (if l.multi then l.total else q'.width) q'.height a).1)
         | some x => .ok ((x, (alignOffset at_ q'.width q'.height a).2), some x)) := by
      intro q' hq' pen
      obtain ⟨f1, f2, f3⟩ := hpin q' hq'
      unfold positionSegment
      rw [pinned_tags f1 hx hy f3, aligned_eq hn f2]
      cases pen <;> rfl
    obtain ⟨ps, k1, k2, k3⟩ := line_follow (num := num) (p := p) (e := e) (time := time) (dflt := defaultAlignment (some s)) (l := l)
      (fun q' y => r.of y q'.height = at_.2) q rs (alignOffset at_ (len (q :: rs)) q.height a).1
      (by
        refine ⟨(alignOffset at_ (len (q :: rs)) q.height a).2, ?_, ?_⟩
        · rw [seg q List.mem_cons_self none]
          dsimp only
          rw [hlm, hlt, hw]
        · rw [(offset_parts hn _ _ _).2])
      (by
        intro q' hq' x
        refine ⟨(alignOffset at_ q'.width q'.height a).2, ?_, ?_⟩
        · rw [seg q' (List.mem_cons_of_mem _ hq') (some x)]
        · rw [(offset_parts hn _ _ _).2])
    refine ⟨ps, _, ?_, k2, ?_, k3⟩
    · unfold place
      rw [lineLoop, hst, show [q :: rs].length = 1 from rfl, hl, k1]
      rfl
    · rw [(offset_parts hn _ _ _).1]

/-! ## Instances -/

/-- Numbers in the examples. -/
def demoNum (s : Str) : Option Rat := (parseU32 s).map fun n => (n : Rat)

/-- A frame of 200 × 100 for a script of 100 × 50, with margins of 10, 10 and 5. -/
def demoPipe : Pipe := ⟨200, 100, 100, 50, none, [("D".toList, ⟨"2".toList, "10".toList, "10".toList, "5".toList⟩)], none⟩

def demoEv : Ev := ⟨"D".toList, "0".toList, "0".toList, "7".toList, 100, 300⟩

/-- A run of width 30 and height 8. -/
def demoRun : Run := ⟨none, none, none, 30, 30, 8, 30, 1⟩

example : place demoNum demoPipe demoEv 200 10 [[demoRun, demoRun]] = .ok [[(70, 78), (100, 78)]] ∧
    place demoNum demoPipe demoEv 200 10 [[demoRun], [demoRun]] = .ok [[(85, 66)], [(85, 76)]] ∧
    place demoNum demoPipe demoEv 200 10 [[{ demoRun with move := some ⟨0, 0, 10, 20, 0, 0⟩, align := some 7 }]] = .ok [[(10, 20)]] := by
  decide +kernel

example : Measured [demoRun, demoRun] ∧ MarginIs demoNum "0".toList "10".toList 10 ∧ MarginIs demoNum "7".toList "5".toList 7 ∧
    Numpad 2 .middle .last ∧ (∀ q ∈ [demoRun, demoRun], q.pos = none ∧ q.move = none ∧ Aligned 2 ⟨"2".toList, [], [], []⟩ q) := by
  refine ⟨⟨?_, ?_⟩, .inr ⟨.inr (by decide +kernel), .inl (by decide +kernel)⟩, .inl ⟨7, by decide +kernel, by decide, rfl⟩, .bc, ?_⟩
  · intro r hr
    have : r = demoRun := by simpa using hr
    subst this
    decide +kernel
  · intro r h; cases h
  · intro r hr
    have : r = demoRun := by simpa using hr
    subst this
    exact ⟨rfl, rfl, .inr ⟨rfl, by decide +kernel⟩⟩

/-! ## Disagreements -/

/-- **C104 is violated**: all lines of a pinned event are drawn on top of one another. -/
theorem C104_pinned_lines_violated :
    ¬ ∀ (num : Str → Option Rat) (p : Pipe) (e : Ev) (time : Nat) (lh : Rat) (ls : List (List Run)) (pss : List (List Pt)), 0 < lh →
        place num p e time lh ls = .ok pss → ∀ (i j : Nat) ps qs, i < j → pss[i]? = some ps → pss[j]? = some qs →
        ∀ a ∈ ps, ∀ b ∈ qs, a.2 < b.2 := by
  intro h
  have := h demoNum demoPipe demoEv 200 10 [[{ demoRun with pos := some (50, 25) }], [{ demoRun with pos := some (50, 25) }]]
    [[(85, 42)], [(85, 42)]] (by decide) (by decide +kernel) 0 1 _ _ (by decide) rfl rfl (85, 42) List.mem_cons_self (85, 42) List.mem_cons_self
  revert this
  decide

/-- **C104 is violated**: a line of a single run that is stretched by `\fscx` is not centred. -/
theorem C104_stretched_violated :
    ¬ ∀ (num : Str → Option Rat) (p : Pipe) (e : Ev) (time : Nat) (lh : Rat) (r : Run) (x y : Rat), r.measure = step r →
        r.width = r.advance → r.align = some 5 → r.pos = none → r.move = none →
        place num p e time lh [[r]] = .ok [[(x, y)]] → x + step r / 2 = (p.w : Rat) / 2 := by
  intro h
  have := h demoNum demoPipe demoEv 200 10 ⟨none, none, some 5, 60, 30, 8, 30, 2⟩ 85 46 (by decide +kernel) rfl rfl rfl rfl (by decide +kernel)
  revert this
  decide +kernel

/-- **C104 is violated**: a centred line is centred on the frame even when its margins differ. -/
theorem C104_centre_violated :
    ¬ ∀ (num : Str → Option Rat) (p : Pipe) (e : Ev) (time : Nat) (lh : Rat) (r : Run) (s : Style) (ml mr x y : Rat), r.measure = step r →
        r.width = step r → r.align = some 5 → r.pos = none → r.move = none → p.styles.get e.style = some s →
        MarginIs num e.marginL s.marginL ml → MarginIs num e.marginR s.marginR mr → place num p e time lh [[r]] = .ok [[(x, y)]] →
        x + step r / 2 = (ml * p.sx + ((p.w : Rat) - mr * p.sx)) / 2 := by
  intro h
  have := h demoNum demoPipe { demoEv with marginL := "40".toList } 200 10 ⟨none, none, some 5, 30, 30, 8, 30, 1⟩ _ 40 10 85 46
    (by decide +kernel) (by decide +kernel) rfl rfl rfl rfl (.inl ⟨40, by decide +kernel, by decide, rfl⟩)
    (.inr ⟨.inr (by decide +kernel), .inl (by decide +kernel)⟩) (by decide +kernel)
  revert this
  decide +kernel

/-- **C104 is violated**: a margin of zero written `0000`, as scripts usually do, is taken for a margin of zero and not for the style's. -/
theorem C104_zero_violated :
    ¬ ∀ (num : Str → Option Rat) (p : Pipe) (e : Ev) (time : Nat) (lh : Rat) (r : Run) (s : Style) (mv x y : Rat),
        r.align = some 8 → r.pos = none → r.move = none → p.styles.get e.style = some s →
        MarginIs num e.marginV s.marginV mv → place num p e time lh [[r]] = .ok [[(x, y)]] → y = mv * p.sy := by
  intro h
  have := h demoNum demoPipe { demoEv with marginV := "0000".toList } 200 10 ⟨none, none, some 8, 30, 30, 8, 30, 1⟩ _ 5 85 0
    rfl rfl rfl rfl (.inr ⟨.inr (by decide +kernel), .inl (by decide +kernel)⟩) (by decide +kernel)
  revert this
  decide +kernel

/-- **C104 is violated**: an event with an unknown style gets the alignment of the default style, but not its margins. -/
theorem C104_default_violated :
    ¬ ∀ (num : Str → Option Rat) (p : Pipe) (e : Ev) (time : Nat) (lh : Rat) (r : Run) (s : Style) (mv x y : Rat),
        r.align = some 8 → r.pos = none → r.move = none → p.styles.get e.style = none → p.default = some s →
        MarginIs num e.marginV s.marginV mv → place num p e time lh [[r]] = .ok [[(x, y)]] → y = mv * p.sy := by
  intro h
  have := h demoNum { demoPipe with default := some ⟨"2".toList, "10".toList, "10".toList, "5".toList⟩ }
    { demoEv with style := "X".toList, marginV := "0".toList } 200 10 ⟨none, none, some 8, 30, 30, 8, 30, 1⟩ _ 5 85 0
    rfl rfl rfl rfl rfl (.inr ⟨.inr (by decide +kernel), .inl (by decide +kernel)⟩) (by decide +kernel)
  revert this
  decide +kernel

end Verif.Props
