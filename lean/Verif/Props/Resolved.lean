import Verif.Lemmas.Resolved
/-!
# C100 — resolved styles
-/
namespace Verif.Props
open Verif Verif.Spec Verif.Spec.Resolved Verif.Resolved
open Verif.Ast (Style)
open Verif.Parser (Section)
open Verif.Color (Rgba parseBgrColor)

/-- A reader of numbers good enough for the examples: whole numbers only. -/
def wholeNum (t : Str) : Option Rat := (parseUnsigned 10 1000000 t).map (fun n => (n : Rat))

/-- A style as most scripts have it, but for the flags. -/
def plainStyle : Style :=
  { name := "Default".toList, parent := none, fontname := "Arial".toList, fontsize := "20".toList, primary := "&H00FFFFFF".toList
    secondary := "&H000000FF".toList, outlineColour := "&H00000000".toList, back := [], bold := "1".toList
    italic := "0".toList, underline := "0".toList, strikeout := "0".toList, scaleX := "100".toList, scaleY := "100".toList
    spacing := "0".toList, angle := "0".toList, borderStyle := "1".toList, outline := "2".toList, shadow := "3".toList
    alignment := "2".toList, marginL := "10".toList, marginR := "11".toList, marginV := "12".toList, marginT := none
    marginB := none, encoding := "1".toList, relativeTo := none }

/-- What it resolves to. -/
def plainLook : Look :=
  { name := "Default".toList, fontName := "Arial".toList, fontSize := 20, primary := ⟨255, 255, 255, 0⟩, secondary := ⟨255, 0, 0, 0⟩
    outlineColor := ⟨0, 0, 0, 0⟩, back := ⟨255, 255, 255, 255⟩, bold := true, italic := false, underline := false
    strikeOut := false, scaleX := 100, scaleY := 100, spacing := 0, angle := 0, borderStyle := 1, outline := 2, shadow := 3
    alignment := 2, marginL := 10, marginR := 11, marginT := 12, marginB := 12, encoding := 1, score := 7 }

theorem plain_resolves : fromStyle wholeNum plainStyle = some plainLook := by decide +kernel

/-- **C100.** Resolving a style on its own succeeds exactly when its fields are readable, and gives just what they say: the font
(Arial if none is named), sizes above 0 and up to 1000, colours (blank means white with alpha 255), flags written `0` or `1`,
scales from 0 to 1000, whole numbers in range, the vertical margins from `MarginT` and `MarginB` if both are there and from
`MarginV` otherwise; the score is the sum of the points for what is slow to draw. -/
theorem C100_style (num : Str → Option Rat) (s : Style) (r : Look) :
    fromStyle num s = some r ↔ Says num parseBgrColor s r ∧ Scored r := fromStyle_iff

example : Says wholeNum parseBgrColor plainStyle plainLook := ((C100_style _ _ _).1 plain_resolves).1

/-- **C100 is violated**: a style with a flag set the way other programs write it (`-1`) does not resolve. -/
theorem C100_true_violated :
    ¬ ∀ (s : Style) (r : Look), fromStyle wholeNum s = some r → (fromStyle wholeNum { s with bold := "-1".toList }).isSome = true := by
  intro h
  have := h plainStyle plainLook plain_resolves
  revert this
  decide +kernel

/-- The score is never above 79: no style reaches the cap of 100, and one is called slow (above 70) only with all of a font above
72, an outline above 2, a shadow above 1, a scale other than 100 and a rotation. -/
theorem C100_score (r : Look) (h : Scored r) :
    r.score ≤ 79 ∧ (70 < r.score →
      72 < r.fontSize ∧ 2 < r.outline ∧ 1 < r.shadow ∧ ¬ (Near r.scaleX 100 ∧ Near r.scaleY 100) ∧ ¬ Near r.angle 0) := by
  unfold Scored points at h
  have hb : ∀ b : Bool, b.toNat ≤ 1 := by decide
  have h1 := hb r.bold
  have h2 := hb r.italic
  have h3 := hb (r.underline || r.strikeOut)
  generalize r.bold.toNat = x1 at *
  generalize r.italic.toNat = x2 at *
  generalize (r.underline || r.strikeOut).toNat = x3 at *
  constructor
  · rw [h]
    repeat' split
    all_goals omega
  · intro hs
    rw [h] at hs
    by_cases c1 : 72 < r.fontSize
    · by_cases c2 : 2 < r.outline
      · by_cases c4 : Near r.scaleX 100 ∧ Near r.scaleY 100
        · exfalso
          rw [if_pos c4] at hs
          revert hs
          repeat' split
          all_goals omega
        · by_cases c5 : Near r.angle 0
          · exfalso
            rw [if_pos c5] at hs
            revert hs
            repeat' split
            all_goals omega
          · by_cases c3 : 1 < r.shadow
            · exact ⟨c1, c2, c3, c4, c5⟩
            · exfalso
              have c3' : ¬ 3 < r.shadow := by grind
              rw [if_neg c3', if_neg c3] at hs
              revert hs
              repeat' split
              all_goals omega
      · exfalso
        have c2' : ¬ 4 < r.outline := by grind
        rw [if_neg c2', if_neg c2] at hs
        revert hs
        repeat' split
        all_goals omega
    · exfalso
      rw [if_neg c1] at hs
      revert hs
      repeat' split
      all_goals omega

example : Scored { plainLook with fontSize := 80, outline := 5, shadow := 4, scaleX := 120, angle := 10, score := 72 } := by
  unfold Scored; decide +kernel

/-- A style that leaves most to its parent. -/
def childStyle : Style :=
  { plainStyle with
    name := "Child".toList, parent := some "Default".toList, fontname := [], fontsize := "30".toList, primary := [], bold := []
    italic := "1".toList, scaleX := [], scaleY := "50".toList, spacing := [], angle := [], outline := [], shadow := "1".toList
    marginL := [], marginV := [] }

/-- **C100.** Resolving a style with a parent gives the parent's properties where the style's fields are empty and what the fields
say elsewhere, and fails exactly if one of those is not readable.  Partial: the fields written `0` (font size, spacing, angle,
outline, shadow, vertical margin), the scales written `100` and flags other than `0` and `1` are excluded. -/
theorem C100_parent_partial (num : Str → Option Rat) (s : Style) (p r : Look) (h : Overrides s) :
    fromStyleWithParent num s p = some r ↔ Inherits num parseBgrColor s p r ∧ Scored r := fromStyleWithParent_iff h

example : Overrides childStyle ∧ (fromStyleWithParent wholeNum childStyle plainLook).map
    (fun r => (r.fontName, r.fontSize, r.primary, r.bold, r.italic)) =
    some ("Arial".toList, 30, ⟨255, 255, 255, 0⟩, true, true) := by
  refine ⟨⟨?_, ?_, ?_, ?_, ?_, ?_, ?_, Or.inr ?_, ?_, ?_, ?_, ?_⟩, ?_⟩ <;> decide +kernel

/-- **C100 is violated**: a style cannot set a property back to `0`: a shadow, an outline, an angle, a spacing or a vertical margin
of `0` is taken from the parent. -/
theorem C100_zero_violated :
    ¬ ∀ (s : Style) (p r : Look), fromStyleWithParent wholeNum s p = some r → Takes (fun t x => wholeNum t = some x) s.shadow p.shadow r.shadow := by
  intro h
  have hr : ∃ r, fromStyleWithParent wholeNum { childStyle with shadow := "0".toList } plainLook = some r ∧ r.shadow = 3 := by
    have : (fromStyleWithParent wholeNum { childStyle with shadow := "0".toList } plainLook).any (fun r => decide (r.shadow = 3)) = true := by
      decide +kernel
    cases e : fromStyleWithParent wholeNum { childStyle with shadow := "0".toList } plainLook with
    | none => rw [e] at this; cases this
    | some r => rw [e] at this; exact ⟨r, rfl, of_decide_eq_true this⟩
  obtain ⟨r, h1, h2⟩ := hr
  rcases h _ _ _ h1 with ⟨h3, _⟩ | ⟨_, h3⟩
  · revert h3; decide
  · have e : wholeNum "0".toList = some 0 := by decide +kernel
    have h3' : wholeNum "0".toList = some r.shadow := h3
    rw [e, h2] at h3'
    revert h3'
    decide +kernel

/-- **C100 is violated**: nor can it set a scale back to `100`. -/
theorem C100_hundred_violated :
    ¬ ∀ (s : Style) (p r : Look), fromStyleWithParent wholeNum s p = some r → Takes (Percent wholeNum) s.scaleX p.scaleX r.scaleX := by
  intro h
  have hr : ∃ r, fromStyleWithParent wholeNum { childStyle with scaleX := "100".toList } { plainLook with scaleX := 50 } = some r ∧
      r.scaleX = 50 := by
    have : (fromStyleWithParent wholeNum { childStyle with scaleX := "100".toList } { plainLook with scaleX := 50 }).any
        (fun r => decide (r.scaleX = 50)) = true := by decide +kernel
    cases e : fromStyleWithParent wholeNum { childStyle with scaleX := "100".toList } { plainLook with scaleX := 50 } with
    | none => rw [e] at this; cases this
    | some r => rw [e] at this; exact ⟨r, rfl, of_decide_eq_true this⟩
  obtain ⟨r, h1, h2⟩ := hr
  rcases h _ _ _ h1 with ⟨h3, _⟩ | ⟨_, h3, _⟩
  · revert h3; decide
  · have e : wholeNum "100".toList = some 100 := by decide +kernel
    have h3' : wholeNum "100".toList = some r.scaleX := h3
    rw [e, h2] at h3'
    revert h3'
    decide +kernel

/-- **C100 is violated**: a flag that cannot be read is not an error under a parent, it is ignored. -/
theorem C100_flag_violated :
    ¬ ∀ (s : Style) (p r : Look), fromStyleWithParent wholeNum s p = some r → Takes Flag s.italic p.italic r.italic := by
  intro h
  have hr : ∃ r, fromStyleWithParent wholeNum { childStyle with italic := "-1".toList } plainLook = some r := by
    have : (fromStyleWithParent wholeNum { childStyle with italic := "-1".toList } plainLook).isSome = true := by decide +kernel
    exact Option.isSome_iff_exists.1 this
  obtain ⟨r, h1⟩ := hr
  rcases h _ _ _ h1 with ⟨h3, _⟩ | ⟨_, ⟨h3, _⟩ | ⟨h3, _⟩⟩ <;> revert h3 <;> decide

/-! ## The analyzer -/

/-- **C100.** What the analyzer finds for a name is made from the last style of that name that resolves on its own, in the first
section of styles: just what that style says, scaled from the layout resolution to the play resolution of the first script
information section — font size, outline and shadow by the mean of both factors, spacing and side margins by the horizontal one,
vertical margins by the vertical one, margins rounded down — or unscaled if one of the two is not given; and with a score to
match.  Every name with a style that resolves is found.  Partial: parents are never used (C23), and a layout resolution of 0 is
left out. -/
theorem C100_analyzer_partial (num : Str → Option Rat) (sections : List Section) (styles : List Style) (fields : List (Str × Str))
    (hs : StyleList sections styles) (hf : InfoFields sections fields) :
    ∃ m, resolved num sections = some m ∧
      (∀ n r', m.get n = some r' → Scored r' ∧
        ∃ s r, LastReadable num parseBgrColor styles n s ∧ Says num parseBgrColor s r ∧ Fits fields r r') ∧
      ∀ n, (∃ s, LastReadable num parseBgrColor styles n s) → ∃ r', m.get n = some r' := by
  obtain ⟨m, h1, h2⟩ := resolved_get (num := num) hs
  refine ⟨m, h1, ?_, ?_⟩
  · intro n r' hg
    obtain ⟨a, s, b, r, e, hn, hr, hb, rfl⟩ := (h2 n r').1 hg
    obtain ⟨hsays, hsc⟩ := fromStyle_iff.1 hr
    obtain ⟨m1, m2, m3, m4⟩ := hsays.margins
    obtain ⟨k1, k2⟩ := applyScaling_fits hf m1 m2 m3 m4 hsc
    exact ⟨k2, s, r, ⟨a, b, e, hn, ⟨r, hsays⟩, fun t ht hnt => unreadable_iff.1 (hb t ht hnt)⟩, hsays, k1⟩
  · rintro n ⟨s, a, b, e, hn, hr, hb⟩
    cases hr' : fromStyle num s with
    | none => exact absurd hr (unreadable_iff.1 hr')
    | some r => exact ⟨_, (h2 n _).2 ⟨a, s, b, r, e, hn, hr', fun t ht hnt => unreadable_iff.2 (hb t ht hnt), rfl⟩⟩

/-- A script of 1280 × 720 laid out for 640 × 240. -/
def scaledSections : List Section :=
  [.info [("LayoutResX".toList, "640".toList), ("LayoutResY".toList, "240".toList), ("PlayResX".toList, "1280".toList),
      ("PlayResY".toList, "720".toList)] ⟨0, 0, 1, 1⟩,
    .styles [({ plainStyle with fontsize := "9".toList }, ⟨0, 0, 1, 1⟩), (plainStyle, ⟨0, 0, 1, 1⟩),
      ({ plainStyle with fontsize := "x".toList }, ⟨0, 0, 1, 1⟩)]]

example : ((resolved wholeNum scaledSections).bind (·.get "Default".toList)).map
    (fun r => (r.fontSize, r.marginL, r.marginT, r.outline)) = some (50, 20, 36, 5) := by decide +kernel

/-- Nothing is found in a script without a section of styles. -/
theorem C100_no_styles (num : Str → Option Rat) (sections : List Section) (h : ∀ x ∈ sections, ∀ l, x ≠ .styles l) :
    resolved num sections = some [] := by
  have : firstStyles sections = none := by
    induction sections with
    | nil => rfl
    | cons x l ih =>
      cases x with
      | styles l => exact absurd rfl (h _ List.mem_cons_self l)
      | _ => exact ih fun y hy => h y (List.mem_cons_of_mem _ hy)
  unfold resolved
  rw [this]

/-- **C100 is violated**: the styles of a second section of styles are not found. -/
theorem C100_sections_violated :
    ¬ ∀ (sections : List Section) (m : Map Str Look) (l : List (Style × Parser.Span)) (x : Style × Parser.Span),
        resolved wholeNum sections = some m → .styles l ∈ sections → x ∈ l → (fromStyle wholeNum x.1).isSome = true →
        (m.get x.1.name).isSome = true := by
  intro h
  have e : (resolved wholeNum [.styles [], .styles [(plainStyle, ⟨0, 0, 1, 1⟩)]]) = some [] := by decide +kernel
  have := h _ [] [(plainStyle, ⟨0, 0, 1, 1⟩)] (plainStyle, ⟨0, 0, 1, 1⟩) e (by simp) (by simp) (by rw [plain_resolves]; rfl)
  cases this

/-! ## Conflicts -/

/-- **C100.** The analyzer reports a missing parent for exactly the styles that name a parent the section does not have; circular
inheritance exactly if some style inherits from itself; and, if asked to look for conflicts, a duplicate for exactly the names
that more than one style has, with as many entries as there are styles. -/
theorem C100_conflicts (sections : List Section) (styles : List Style) (hs : StyleList sections styles) (check : Bool) :
    (∀ n p, Conflict.missingParent n p ∈ conflicts check sections ↔
      ∃ s ∈ styles, s.name = n ∧ s.parent = some p ∧ ∀ q ∈ styles, q.name ≠ p) ∧
    ((∃ l, Conflict.circular l ∈ conflicts check sections) ↔ Sty.Circular (styles.map fun s => ⟨s.name, s.parent, s⟩)) ∧
    (∀ l, Conflict.duplicate l ∈ conflicts check sections ↔
      check = true ∧ ∃ n, l = (styles.filter (fun s => s.name = n)).map (·.name) ∧ 2 ≤ l.length) := by
  refine ⟨fun n p => ?_, ?_, fun l => ?_⟩
  · rw [mem_conflicts hs, mem_missing]
    constructor
    · rintro (h | h | ⟨_, h⟩)
      · exact h
      · obtain ⟨l, e⟩ := circular_form h; cases e
      · obtain ⟨l, e⟩ := duplicates_form h; cases e
    · exact Or.inl
  · have : (styles.map fun s => (⟨s.name, s.parent, s⟩ : Styles.Style Style)) = styles.map node := rfl
    rw [this, ← mem_circular]
    constructor
    · rintro ⟨l, h⟩
      rcases (mem_conflicts hs _).1 h with h | h | ⟨_, h⟩
      · obtain ⟨_, _, e⟩ := missing_form h; cases e
      · exact ⟨l, h⟩
      · obtain ⟨_, e⟩ := duplicates_form h; cases e
    · rintro ⟨l, h⟩
      exact ⟨l, (mem_conflicts hs _).2 (Or.inr (Or.inl h))⟩
  · rw [mem_conflicts hs, ← mem_duplicates]
    constructor
    · rintro (h | h | h)
      · obtain ⟨_, _, e⟩ := missing_form h; cases e
      · obtain ⟨_, e⟩ := circular_form h; cases e
      · exact h
    · exact fun h => Or.inr (Or.inr h)

/-- A section of styles with the given names and parents. -/
def named (l : List (String × Option String)) : List Section :=
  [.styles (l.map fun x => ({ plainStyle with name := x.1.toList, parent := x.2.map (·.toList) }, ⟨0, 0, 1, 1⟩))]

example : conflicts true (named [("A", none), ("B", some "A"), ("A", some "Z")]) =
    [.missingParent "A".toList "Z".toList, .duplicate ["A".toList, "A".toList]] := by decide +kernel

/-- **C100 is violated**: the conflict about circular inheritance names all styles, not those of the circle. -/
theorem C100_circle_violated :
    ¬ ∀ (sections : List Section) (styles : List Style) (l : List Str) (n : Str), StyleList sections styles →
        Conflict.circular l ∈ conflicts true sections → n ∈ l →
        Relation.TransGen (Sty.Inherits (styles.map fun s => (⟨s.name, s.parent, s⟩ : Styles.Style Style))) n n := by
  intro h
  have := h (named [("A", some "B"), ("B", some "A"), ("C", none)]) _ ["A".toList, "B".toList, "C".toList] "C".toList
    ⟨[], _, [], rfl, by simp, rfl⟩ (by decide +kernel) (by decide)
  have key : ∀ x, ¬ Sty.Inherits ((((named [("A", some "B"), ("B", some "A"), ("C", none)]).flatMap fun
      | .styles l => l.map (·.1)
      | _ => [])).map fun s => (⟨s.name, s.parent, s⟩ : Styles.Style Style)) "C".toList x := by
    rintro x ⟨s, hs, hn, hp, _⟩
    have hall : ∀ s ∈ (((named [("A", some "B"), ("B", some "A"), ("C", none)]).flatMap fun
      | .styles l => l.map (·.1)
      | _ => [])).map (fun s => (⟨s.name, s.parent, s⟩ : Styles.Style Style)), s.name = "C".toList → s.parent = none := by
      decide +kernel
    rw [hall s hs hn] at hp
    cases hp
  cases this with
  | single h1 => exact key _ h1
  | tail h1 h2 =>
    have : ∀ {a b : Str} {r : Str → Str → Prop}, Relation.TransGen r a b → ∃ c, r a c := by
      intro a b r ht
      induction ht with
      | single h => exact ⟨_, h⟩
      | tail _ _ ih => exact ih
    obtain ⟨c, hc⟩ := this h1
    exact key _ hc

/-! ## Inheritance information -/

/-- **C100.** For a style with a name of its own, the inheritance information says: its parent, if the section has it; none, if
the style names none; and there is no information at all if the parent named is missing.
Missing: several styles of one name, chains of more than one parent (`C100_depth_violated`) and the list of children
(`C100_children_violated`). -/
theorem C100_inheritance_info_partial (sections : List Section) (a b : List Style) (s : Style)
    (hs : StyleList sections (a ++ s :: b)) (ha : ∀ t ∈ a, t.name ≠ s.name) (hb : ∀ t ∈ b, t.name ≠ s.name) :
    (s.parent = none → (info sections).get s.name = some ⟨[], [], 0⟩) ∧
    (∀ p, s.parent = some p → (∃ q ∈ a ++ s :: b, q.name = p) → (info sections).get s.name = some ⟨[p], [], 1⟩) ∧
    (∀ p, s.parent = some p → (¬ ∃ q ∈ a ++ s :: b, q.name = p) → (info sections).get s.name = none) := by
  rw [info_get hs ha hb]
  unfold infoStep
  refine ⟨fun h => ?_, fun p h hq => ?_, fun p h hq => ?_⟩
  · rw [h]
    exact Map.get_insert_self _ _ _
  · rw [h]
    dsimp only
    obtain ⟨q, hq, e⟩ := hq
    rw [if_pos (List.any_eq_true.2 ⟨q, hq, by simpa using e⟩), Map.get_nil]
    exact Map.get_insert_self _ _ _
  · rw [h]
    dsimp only
    rw [if_neg, Map.get_nil]
    intro hany
    obtain ⟨q, h1, h2⟩ := List.any_eq_true.1 hany
    exact hq ⟨q, h1, by simpa using h2⟩

example : (info (named [("A", none), ("B", some "A"), ("C", some "B"), ("D", some "Z")])).get "C".toList =
    some ⟨["B".toList], [], 1⟩ := by decide +kernel

/-- **C100 is violated**: a style others inherit from is not told about them: its list of children is empty, so that it counts as a
leaf. -/
theorem C100_children_violated :
    ¬ ∀ (sections : List Section) (styles : List Style) (s : Style) (p : Str) (i : Info), StyleList sections styles → s ∈ styles →
        s.parent = some p → (info sections).get p = some i → s.name ∈ i.children := by
  intro h
  have := h (named [("A", none), ("B", some "A")]) _ { plainStyle with name := "B".toList, parent := some "A".toList } "A".toList
    ⟨[], [], 0⟩ ⟨[], _, [], rfl, by simp, rfl⟩ (by decide +kernel) rfl (by decide +kernel)
  cases this

/-- **C100 is violated**: the depth of a style is not how far it is from a root, but 1 for every style with a parent. -/
theorem C100_depth_violated :
    ¬ ∀ (sections : List Section) (n p : Str) (i j : Info), (info sections).get n = some i → i.parents = [p] →
        (info sections).get p = some j → i.depth = j.depth + 1 := by
  intro h
  have := h (named [("A", none), ("B", some "A"), ("C", some "B")]) "C".toList "B".toList ⟨["B".toList], [], 1⟩
    ⟨["A".toList], [], 1⟩ (by decide +kernel) rfl (by decide +kernel)
  revert this
  decide

/-! ## Validation -/

/-- **C100 is violated**: a style whose font size is not positive is not reported: it does not resolve, and only resolved styles
are looked at. -/
theorem C100_size_error_violated :
    ¬ ∀ (sections : List Section) (styles : List Style) (m : Map Str Look) (s : Style) (x : Rat), StyleList sections styles →
        resolved wholeNum sections = some m → s ∈ styles → wholeNum s.fontsize = some x → x ≤ 0 →
        ∃ i, (s.name, i) ∈ validate ⟨true, true, true, 50⟩ m := by
  intro h
  obtain ⟨i, hi⟩ := h [.styles [({ plainStyle with fontsize := "0".toList }, ⟨0, 0, 1, 1⟩)]] _ [] { plainStyle with fontsize := "0".toList } 0
    ⟨[], _, [], rfl, by simp, rfl⟩ (by decide +kernel) (by simp) (by decide +kernel) (by decide +kernel)
  cases hi

/-- **C100.** In a script without a layout or play resolution no configuration ever reports a font size that is not positive.
A font above 200 is reported in strict validation, a font above the threshold and a score above 70 with the performance checks.
Missing: scripts with both resolutions, where the font size is scaled, and sizes that are not positive, which are not reported
(`C100_size_error_violated`). -/
theorem C100_validation_partial (num : Str → Option Rat) (sections : List Section) (styles : List Style) (fields : List (Str × Str))
    (hs : StyleList sections styles) (hf : InfoFields sections fields) (m : Map Str Look) (hm : resolved num sections = some m)
    (c : Config) (n : Str) :
    ((¬ ∃ x y, Resolution fields "LayoutResX".toList "LayoutResY".toList x y) ∨
      (¬ ∃ x y, Resolution fields "PlayResX".toList "PlayResY".toList x y) → (n, Issue.notPositive) ∉ validate c m) ∧
    ((n, Issue.veryLarge) ∈ validate c m ↔
      c.validation = true ∧ c.strict = true ∧ ∃ r, m.get n = some r ∧ 200 < r.fontSize) ∧
    ((n, Issue.large) ∈ validate c m ↔ c.performance = true ∧ ∃ r, m.get n = some r ∧ c.largeFont < r.fontSize) ∧
    ((n, Issue.complex) ∈ validate c m ↔ c.performance = true ∧ ∃ r, m.get n = some r ∧ 70 < r.score) := by
  have hw := resolved_wf hm
  have key : ∀ i, (n, i) ∈ validate c m ↔ ∃ r, m.get n = some r ∧ i ∈ check c r := by
    intro i
    unfold validate
    rw [List.mem_flatMap]
    constructor
    · rintro ⟨⟨k, r⟩, h1, h2⟩
      obtain ⟨j, hj, e⟩ := List.mem_map.1 h2
      cases e
      exact ⟨r, Map.get_of_mem hw h1, hj⟩
    · rintro ⟨r, h1, h2⟩
      exact ⟨(n, r), Map.mem_of_get h1, List.mem_map.2 ⟨i, h2, rfl⟩⟩
  refine ⟨?_, ?_, ?_, ?_⟩
  · intro hno hin
    obtain ⟨r', hg, hc⟩ := (key _).1 hin
    obtain ⟨m', h1, h2, _⟩ := C100_analyzer_partial num sections styles fields hs hf
    rw [hm] at h1
    cases h1
    obtain ⟨_, s, r, _, hsay, hfit⟩ := h2 n r' hg
    have : r' = r := hfit.2 hno
    subst this
    have hpos := hsay.fontSize.2.1
    have : r'.fontSize ≤ 0 := by
      unfold check at hc
      cases hv : c.validation <;> cases hp : c.performance <;> simp [hv, hp] at hc <;> grind
    grind
  · rw [key]
    unfold check
    cases hv : c.validation <;> cases hp : c.performance <;> cases hst : c.strict <;> simp [hv, hp, hst] <;> grind
  · rw [key]
    unfold check
    cases hv : c.validation <;> cases hp : c.performance <;> cases hst : c.strict <;> simp [hv, hp, hst] <;> grind
  · rw [key]
    unfold check
    cases hv : c.validation <;> cases hp : c.performance <;> cases hst : c.strict <;> simp [hv, hp, hst] <;> grind

example : (resolved wholeNum scaledSections).map (validate ⟨true, true, true, 40⟩) = some [("Default".toList, .large)] := by
  decide +kernel

end Verif.Props
