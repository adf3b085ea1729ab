import Verif.Lemmas.Stack
/-!
# C108 — Simultaneous subtitles are stacked
-/
namespace Verif.Props
open Verif
open Verif.Stack
open Verif.Collision (Box Resolver)
open Verif.Spec.Coll (Apart OnScreen Overlap)
open Verif.Spec.Stack

/-- **C108.** The frame has all layers of all events: lower layers first, within a layer by start, otherwise in the order given.
An event is moved up or down as a whole or not at all, never when its text says where it stands, away from its own edge of the
screen, and only if something is in the way or it is not on the screen.  Two events of one layer that do not say where they stand
end up at least three pixels apart, unless the later one touches the top or bottom of the screen.

Partial: "the screen" is the one the pipeline was made for, not the frame (`C108_frame_violated`), and an event pushed against an
edge may cover another one (`C24_separated_violated`). -/
theorem C108_stacked_partial (p : Pipe) (frame : Nat × Nat) (draw : Ev → Outcome (List Layer)) (evs : List Ev) (out : List Layer)
    (h : processEvents p frame draw evs = .ok out) : ∃ parts, Stacking p draw evs out parts := by
  obtain ⟨parts, h1, h2, h3⟩ := loop_run h
  exact ⟨parts, stacking h1 h2 h3⟩

/-- Three lines of dialogue, the second on a lower layer, the third at the same place as the first. -/
def stackDraw : Ev → Outcome (List Layer) := fun e =>
  .ok [.text ⟨100, 900, 45, e.text, 0⟩, .vector 7]
def stackEvents : List Ev := [⟨1, 50, [], "one".toList⟩, ⟨0, 90, [], "two".toList⟩, ⟨1, 50, [], "three".toList⟩]

example : processEvents (Pipe.new []) (1920, 1080) stackDraw stackEvents =
    .ok [.text ⟨100, 900, 45, "two".toList, 0⟩, .vector 7, .text ⟨100, 900, 45, "one".toList, 0⟩, .vector 7,
      .text ⟨100, 846, 45, "three".toList, 0⟩, .vector 7] := by decide +kernel

/-- **C108.** Which way an event gives way is decided by exactly one alignment. -/
theorem C108_row (p : Pipe) (e : Ev) : ∃ f, Row p e f ∧ 1 ≤ f ∧ f ≤ 9 ∧ ∀ g, Row p e g → g = f := by
  have hex : ∃ f, Row p e f ∧ 1 ≤ f ∧ f ≤ 9 := by
    by_cases h : ∃ f, Written e f
    · obtain ⟨f, hf⟩ := h
      obtain ⟨_, _, _, _, _, _, h1, h2⟩ := id hf
      exact ⟨f, .inl hf, h1, h2⟩
    · by_cases h2 : ∃ f, Styled p e f
      · obtain ⟨f, hf⟩ := h2
        obtain ⟨_, _, _, h3, h4⟩ := id hf
        exact ⟨f, .inr ⟨fun g hg => h ⟨g, hg⟩, .inl hf⟩, h3, h4⟩
      · exact ⟨2, .inr ⟨fun g hg => h ⟨g, hg⟩, .inr ⟨fun g hg => h2 ⟨g, hg⟩, rfl⟩⟩, by omega, by omega⟩
  obtain ⟨f, hf, h1, h2⟩ := hex
  exact ⟨f, hf, h1, h2, fun g hg => by rw [← row_iff hf, row_iff hg]⟩

example : row (Pipe.new [("Top".toList, "8".toList)]) ⟨0, 0, "Top".toList, "{\\an5}hi".toList⟩ = 5 := by decide
example : row (Pipe.new [("Top".toList, "8".toList)]) ⟨0, 0, "Top".toList, "hi".toList⟩ = 8 := by decide

/-- **C108.** Events that say where they stand do not push others: without them, the others are where they were. -/
theorem C108_pinned_ignored (p : Pipe) (frame : Nat × Nat) (draw : Ev → Outcome (List Layer)) (evs : List Ev) (out : List Layer)
    (h : processEvents p frame draw evs = .ok out) (free : Ev → Bool) (hfree : ∀ e, free e = true ↔ ¬ Pinned e) :
    ∃ parts, Stacking p draw evs out parts ∧
      processEvents p frame draw (evs.filter free) = .ok ((parts.filter fun q => free q.1).flatMap (·.2)) := by
  have e : free = fun e => !pinned e := by
    funext e
    rw [Bool.eq_iff_iff, hfree, Bool.not_eq_true', ← Bool.not_eq_true, pinned_iff]
  subst e
  obtain ⟨parts, h1, h2, h3⟩ := loop_run h
  refine ⟨parts, stacking h1 h2 h3, ?_⟩
  have := loop_filter h3
  rw [h1, sorted_filter] at this
  exact this

example : processEvents (Pipe.new []) (1920, 1080) stackDraw
    [⟨0, 0, [], "{\\pos(1,2)}a".toList⟩, ⟨0, 1, [], "b".toList⟩] =
    .ok [.text ⟨100, 900, 45, "{\\pos(1,2)}a".toList, 0⟩, .vector 7, .text ⟨100, 900, 45, "b".toList, 0⟩, .vector 7] := by
  decide +kernel

/-- **C108.** The frame has layers exactly when every event can be drawn. -/
theorem C108_total (p : Pipe) (frame : Nat × Nat) (draw : Ev → Outcome (List Layer)) (evs : List Ev) :
    (∃ out, processEvents p frame draw evs = .ok out) ↔ ∀ e ∈ evs, ∃ ls, draw e = .ok ls := by
  unfold processEvents
  rw [loop_total]
  have := (drawn_sorted evs).same
  exact ⟨fun h e he => h e (this.mem_iff.2 he), fun h e he => h e (this.mem_iff.1 he)⟩

/-- **C108, disagreement.** A subtitle that is alone and stands within the frame may be moved: the pipeline of the software
backend takes every screen to be 1080 pixels high. -/
theorem C108_frame_violated :
    ¬ ∀ (styles : Map Str Str) (frame : Nat × Nat) (draw : Ev → Outcome (List Layer)) (e : Ev) (t : Text),
        draw e = .ok [.text t] → OnScreen (frame.2 : Rat) (room (Pipe.new styles) t) →
        processEvents (Pipe.new styles) frame draw [e] = .ok [.text t] := by
  intro h
  have := h [] (3840, 2160) (fun _ => .ok [.text ⟨1800, 2000, 90, "Hi".toList, 0⟩]) ⟨0, 0, [], "Hi".toList⟩
    ⟨1800, 2000, 90, "Hi".toList, 0⟩ rfl ⟨by decide +kernel, by decide +kernel⟩
  revert this
  decide +kernel

/-- **C108, disagreement.** Stacked subtitles may leave a frame that is less than 1080 pixels high, although there is room. -/
theorem C108_leaves_frame_violated :
    ¬ ∀ (styles : Map Str Str) (frame : Nat × Nat) (draw : Ev → Outcome (List Layer)) (a b : Ev) (t u : Text) (out : List Layer),
        draw a = .ok [.text t] → draw b = .ok [.text u] →
        OnScreen (frame.2 : Rat) (room (Pipe.new styles) t) → OnScreen (frame.2 : Rat) (room (Pipe.new styles) u) →
        processEvents (Pipe.new styles) frame draw [a, b] = .ok out →
        ∀ v, Layer.text v ∈ out → OnScreen (frame.2 : Rat) (room (Pipe.new styles) v) := by
  intro h
  have := h [("Mid".toList, "5".toList)] (640, 360) (fun _ => .ok [.text ⟨100, 290, 45, "Hi".toList, 0⟩])
    ⟨0, 0, "Mid".toList, "Hi".toList⟩ ⟨0, 0, "Mid".toList, "Hi".toList⟩ _ _
    [.text ⟨100, 290, 45, "Hi".toList, 0⟩, .text ⟨100, 344, 45, "Hi".toList, 0⟩] rfl rfl
    ⟨by decide +kernel, by decide +kernel⟩ ⟨by decide +kernel, by decide +kernel⟩ (by decide +kernel)
    ⟨100, 344, 45, "Hi".toList, 0⟩ (List.mem_cons_of_mem _ (List.mem_singleton.2 rfl))
  exact absurd this.2 (by decide +kernel)

/-- **C108, disagreement.** A text that only mentions `\pos`, outside of any override block, counts as one that says where it
stands: it is drawn over another subtitle. -/
theorem C108_mention_violated :
    ¬ ∀ (p : Pipe) (frame : Nat × Nat) (draw : Ev → Outcome (List Layer)) (a b : Ev) (t u : Text),
        '{' ∉ a.text → '{' ∉ b.text → a.layer = b.layer →
        processEvents p frame draw [a, b] = .ok [.text t, .text u] → OnScreen p.screenH (room p u) →
        (room p u).y = 0 ∨ (room p u).y + (room p u).h = p.screenH ∨ ¬ Overlap (room p u) (room p t) := by
  intro h
  have := h (Pipe.new []) (1920, 1080) (fun e => .ok [.text ⟨100, 900, 45, e.text, 0⟩]) ⟨0, 0, [], "a\\pos".toList⟩
    ⟨0, 0, [], "b".toList⟩ ⟨100, 900, 45, "a\\pos".toList, 0⟩ ⟨100, 900, 45, "b".toList, 0⟩ (by decide) (by decide) rfl
    (by decide +kernel) ⟨by decide +kernel, by decide +kernel⟩
  rcases this with h1 | h1 | h1
  · exact absurd h1 (by decide +kernel)
  · exact absurd h1 (by decide +kernel)
  · exact h1 (by unfold Overlap; decide +kernel)

/-- **C108, disagreement.** Two subtitles at the top of the screen cover one another when their style does not exist: they are
drawn in the default style, but give way as if they stood at the bottom.  The same goes for the alignment of a legacy `\a` tag. -/
theorem C108_unknown_style_violated :
    ¬ ∀ (p : Pipe) (frame : Nat × Nat) (draw : Ev → Outcome (List Layer)) (a b : Ev) (t u : Text),
        a.layer = b.layer → p.styles.get "Default".toList = some "8".toList →
        p.styles.get a.style = none → p.styles.get b.style = none → a.text = "a".toList → b.text = "b".toList →
        processEvents p frame draw [a, b] = .ok [.text t, .text u] → (room p t).h * 4 ≤ p.screenH →
        ¬ Overlap (room p u) (room p t) := by
  intro h
  exact h (Pipe.new [("Default".toList, "8".toList)]) (1920, 1080) (fun e => .ok [.text ⟨100, 10, 45, e.text, 0⟩])
    ⟨0, 0, "Gone".toList, "a".toList⟩ ⟨0, 0, "Gone".toList, "b".toList⟩ ⟨100, 10, 45, "a".toList, 0⟩
    ⟨100, 0, 45, "b".toList, 0⟩ rfl (by decide) (by decide) (by decide) rfl rfl (by decide +kernel) (by decide +kernel)
    (by unfold Overlap; decide +kernel)

end Verif.Props
