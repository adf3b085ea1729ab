import Verif.Props.Look
/-!
# C107 — lines and karaoke
-/
namespace Verif.Props
open Verif Verif.Look Verif.Spec.Look
open Verif.Color (Rgba)
open Verif.Segment (Tags Field Val Seg)
open Verif.Spec.Segment (valueOf)

/-- **C107.** The lines of an event hold its characters, in order and each with the tags in force there, cut at line breaks.
`_partial`: blank lines are lost. -/
theorem C107_lines_partial (gs : List Seg) : (logicalLines gs).map flat = (cut (flat gs)).filter (fun l => decide (l ≠ [])) :=
  linesLoop_ok gs [] (fun g h => by simp at h)

/-- A demonstration: three segments, a line break in the second. -/
def demoSegs : List Seg := [⟨"a".toList, 0, 1, ⟨[], []⟩⟩, ⟨"b\nc".toList, 8, 12, ⟨[(.bold, .flag true)], []⟩⟩, ⟨"d".toList, 18, 19, ⟨[], []⟩⟩]

example : logicalLines demoSegs =
    [[⟨"a".toList, 0, 1, ⟨[], []⟩⟩, ⟨"b".toList, 8, 12, ⟨[(.bold, .flag true)], []⟩⟩],
     [⟨"c".toList, 8, 12, ⟨[(.bold, .flag true)], []⟩⟩, ⟨"d".toList, 18, 19, ⟨[], []⟩⟩]] := by decide

/-- **C107 is violated**: a blank line between two line breaks takes no room, the lines around it close up. -/
theorem C107_lines_violated : ¬ ∀ gs : List Seg, (logicalLines gs).length = (cut (flat gs)).length := by
  intro h
  have := h [⟨"a\n\nb".toList, 0, 6, ⟨[], []⟩⟩]
  revert this
  decide

/-- **C107.** Each run with karaoke is sung after those before it, for as long as its tag says; the rest of the runs has no karaoke.
`_partial`: for an event of one line without drawings, in which every run with karaoke is a syllable of its own. -/
theorem C107_karaoke_partial {start : Nat} (now : Nat) {ts : List Tags} (hd : ∀ t ∈ ts, valueOf t .drawing = none)
    (hr : start + (ts.map duration).sum < 2 ^ 32) :
    ∃ l, singLines start now [ts] = .ok [l] ∧ l.length = ts.length ∧
      ∀ i t e, ts[i]? = some t → l[i]? = some e → Entry (start + ((ts.take i).map duration).sum) now t e := by
  obtain ⟨l, l1, l2, l3⟩ := sing_ok (start := start) (now := now) ts 0 hr hd
  refine ⟨l, ?_, l2, l3⟩
  unfold singLines
  rw [l1]
  rfl

/-- A run that is sung. -/
def sungFor (d : Nat) : Tags := ⟨[(.karaoke, .karaoke d .fill)], []⟩

example : singLines 100 170 [[sungFor 50, ⟨[], []⟩, sungFor 40, sungFor 30]] = .ok [[some 1, none, some (1 / 2), some 0]] := by decide +kernel

/-- **C107.** What is not sung yet has the second colour: that of the tag or else of the style, as opaque as the style says. -/
theorem C107_unsung {d : Defaults} {t : Tags} :
    (∀ c, valueOf t .secondary = some (.color c) → unsung d t = ⟨c.r, c.g, c.b, d.secondary.a⟩) ∧
    ((∀ c, valueOf t .secondary ≠ some (.color c)) → unsung d t = d.secondary) := by
  constructor
  · intro c h
    unfold unsung
    rw [colorOf_some.2 h]
    rfl
  · intro h
    have : colorOf t .secondary = none := by
      cases hc : colorOf t .secondary with
      | none => rfl
      | some c => exact absurd (colorOf_some.1 hc) (h c)
    unfold unsung
    rw [this]
    rfl

example : unsung demoDefaults ⟨[(.secondary, .color ⟨1, 2, 3, 0⟩)], []⟩ = ⟨1, 2, 3, 255⟩ := by decide

/-- **C107 is violated**: `\2a` is ignored. -/
theorem C107_alpha_violated :
    ∃ t, Segment.processBlock (fun _ => none) "\\2a&HFF&".toList ⟨[], []⟩ = .ok t ∧ (unsung demoDefaults t).a = 255 := by
  exact ⟨⟨[(.alpha2, .byte 0)], []⟩, by decide, by decide⟩

/-- **C107 is violated**: the syllables of a second line begin with the event instead of after the first line. -/
theorem C107_second_line_violated :
    singLines 100 125 [[sungFor 50], [sungFor 50]] = .ok [[some (1 / 2)], [some (1 / 2)]] := by decide +kernel

/-- **C107 is violated**: another tag within a syllable makes a second syllable of the same length out of the rest. -/
theorem C107_split_syllable_violated :
    ∃ gs, Segment.segment (fun _ => none) "{\\k50}a{\\b1}b{\\k50}c".toList = .ok gs ∧
      singLines 100 200 (logicalLines gs |>.map (·.map (·.tags))) = .ok [[some 1, some 1, some 0]] := by
  refine ⟨[⟨"a".toList, 6, 7, ⟨[(.karaoke, .karaoke 50 .basic)], []⟩⟩,
    ⟨"b".toList, 12, 13, ⟨[(.bold, .flag true), (.karaoke, .karaoke 50 .basic)], []⟩⟩,
    ⟨"c".toList, 19, 20, ⟨[(.karaoke, .karaoke 50 .basic), (.bold, .flag true)], []⟩⟩], by decide, by decide +kernel⟩

/-- **C107 is violated**: a drawing that is a syllable takes no time. -/
theorem C107_drawing_violated :
    singLines 100 150 [[⟨[(.karaoke, .karaoke 50 .fill), (.drawing, .byte 1)], []⟩, sungFor 50]] = .ok [[some 1]] ∧
    singLines 100 150 [[sungFor 50, sungFor 50]] = .ok [[some 1, some 0]] := by decide +kernel

end Verif.Props
