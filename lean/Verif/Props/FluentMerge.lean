import Verif.Model.FluentMerge
import Verif.Props.FluentTime
/-!
# C178 — cutting an event, and putting the halves together again
-/
namespace Verif.Props.FluentMerge
open Verif Verif.Doc Verif.EventCmd Verif.FluentMerge Verif.Props
open Verif.Spec.EventCmd
open Verif.Props.FluentTime (stamp_char stamp_plain stamp_time)

/-- A document in which the event `f`, of the number `k`, from `s` to `e` centiseconds, stands behind other lines and before the line feed and `t`. -/
structure Holds (d : Doc) (h : Str) (rows : List Str) (k : Nat) (f : Fields) (s e : Nat) (t : Str) : Prop where
  head : Head h
  before : ∀ r ∈ rows, Row r
  count : Count rows k
  safe : f.Safe
  line : '\n' ∉ f.line
  start : Verif.Spec.TimeText f.start s
  fin : Verif.Spec.TimeText f.fin e
  below : e < 2 ^ 31
  text : d.text = h ++ table rows ++ f.line ++ '\n' :: t

theorem half {f : Fields} (hf : f.Safe) (hl : '\n' ∉ f.line) (m : Nat) :
    ({ f with fin := timeStamp m } : Fields).Safe ∧ '\n' ∉ ({ f with fin := timeStamp m } : Fields).line ∧
    ({ f with start := timeStamp m } : Fields).Safe ∧ '\n' ∉ ({ f with start := timeStamp m } : Fields).line := by
  have hp := hf.plain
  have hn : ∀ c ∈ timeStamp m, c ≠ '\n' := by
    intro c hc e
    rcases stamp_char hc with h | h | h
    · rw [e] at h; exact absurd h (by decide)
    · rw [e] at h; exact absurd h (by decide)
    · rw [e] at h; exact absurd h (by decide)
  have h0 := (line_all (f := f) (p := (· ≠ '\n'))).1 (fun c hc e => hl (e ▸ hc))
  have h1 := h0.2.2
  simp only [List.forall_mem_cons] at hp h1
  refine ⟨⟨?_, hf.ascii, hf.text, hf.guarded⟩, ?_, ⟨?_, hf.ascii, hf.text, hf.guarded⟩, ?_⟩
  · simp only [List.forall_mem_cons]
    exact ⟨hp.1, hp.2.1, stamp_plain m, hp.2.2.2⟩
  · intro hm
    refine (line_all (f := { f with fin := timeStamp m }) (p := (· ≠ '\n'))).2 ⟨h0.1, h0.2.1, ?_⟩ _ hm rfl
    simp only [List.forall_mem_cons]
    exact ⟨h1.1, h1.2.1, hn, h1.2.2.2⟩
  · simp only [List.forall_mem_cons]
    exact ⟨hp.1, stamp_plain m, hp.2.2⟩
  · intro hm
    refine (line_all (f := { f with start := timeStamp m }) (p := (· ≠ '\n'))).2 ⟨h0.1, h0.2.1, ?_⟩ _ hm rfl
    simp only [List.forall_mem_cons]
    exact ⟨h1.1, hn, h1.2.2⟩

theorem line_length (f : Fields) (x : Str) : ({ f with text := x } : Fields).line.length + f.text.length = f.line.length + x.length := by
  unfold Fields.line
  rw [List.length_append, List.length_append]
  have h : (csv [f.layer, f.start, f.fin, f.style, f.name, f.ml, f.mr, f.mv, f.effect, x]).length + f.text.length =
      (csv [f.layer, f.start, f.fin, f.style, f.name, f.ml, f.mr, f.mv, f.effect, f.text]).length + x.length := by
    simp only [csv, List.length_append, List.length_cons]
    omega
  dsimp only
  omega

/-- The cut. -/
theorem cut {d : Doc} {h t : Str} {rows : List Str} {k s e m : Nat} {f : Fields} (hd : Holds d h rows k f s e t) (h1 : s < m) (h2 : m < e) :
    ∃ d', splitEvent k (timeStamp m) d = (.ok (), d') ∧
      d'.text = h ++ table rows ++ { f with fin := timeStamp m }.line ++ '\n' :: ({ f with start := timeStamp m }.line ++ '\n' :: t) := by
  have hb := hd.below
  obtain ⟨d', g1, g2⟩ := C66_split_partial d h ('\n' :: t) (timeStamp m) rows k s e m f hd.head hd.before hd.count hd.safe hd.line (Or.inr rfl)
    hd.start hd.fin (stamp_time (by omega)) h1 h2 (by omega) hd.text
  exact ⟨d', g1, by rw [g2, List.append_assoc _ (_ :: _) (_ :: _), List.cons_append]⟩

/-- **C178, partial.** An event cut at a time inside it is shortened by deleting one of the halves: it ends at that time if the second is deleted, and
begins at that time if the first is; nothing else changes.

Missing: events the commands do not handle, as in C66, and an event at the end of the document without a line feed. -/
theorem C178_cut_partial {d : Doc} {h t : Str} {rows : List Str} {k s e m : Nat} {f : Fields} (hd : Holds d h rows k f s e t) (h1 : s < m) (h2 : m < e) :
    ∃ d', splitEvent k (timeStamp m) d = (.ok (), d') ∧
      (∃ d2, deleteEvent (k + 1) d' = (.ok (), d2) ∧ d2.text = h ++ table rows ++ { f with fin := timeStamp m }.line ++ '\n' :: t) ∧
      (∃ d2, deleteEvent k d' = (.ok (), d2) ∧ d2.text = h ++ table rows ++ { f with start := timeStamp m }.line ++ '\n' :: t) := by
  obtain ⟨d', g1, g2⟩ := cut hd h1 h2
  obtain ⟨s1, n1, s2, n2⟩ := half hd.safe hd.line m
  have hr : ∀ r ∈ rows, '\n' ∉ r := fun r hr => (hd.before r hr).1
  refine ⟨d', g1, ?_, ?_⟩
  · obtain ⟨d2, k1, k2⟩ := C65_delete d' h { f with start := timeStamp m }.line t (rows ++ [{ f with fin := timeStamp m }.line]) (k + 1) hd.head
      (by
        intro r hm
        rcases List.mem_append.1 hm with hm | hm
        · exact hr r hm
        · cases List.mem_singleton.1 hm; exact n1)
      (by simpa using count_append hd.count (Count.event (line_isEvent _) Count.nil)) n2 (line_isEvent _)
      (by rw [g2]; simp [table])
    exact ⟨d2, k1, by rw [k2]; simp [table]⟩
  · obtain ⟨d2, k1, k2⟩ := C65_delete d' h { f with fin := timeStamp m }.line ({ f with start := timeStamp m }.line ++ '\n' :: t) rows k hd.head hr
      hd.count n1 (line_isEvent _) (by rw [g2])
    exact ⟨d2, k1, by rw [k2]; simp⟩

/-- **C178, partial.** Putting the halves together again gives the event with the times it had, and all its fields but the text.

Missing: the text (see `C178_text_violated`); as in `C178_cut_partial`. -/
theorem C178_times_partial {d : Doc} {h t sep : Str} {rows : List Str} {k s e m : Nat} {f : Fields} (hd : Holds d h rows k f s e t) (h1 : s < m) (h2 : m < e) :
    ∃ d' d2, splitEvent k (timeStamp m) d = (.ok (), d') ∧ ((Merger.new k (k + 1)).withSeparator sep).apply d' = (.ok (), d2) ∧
      d2.text = h ++ table rows ++ { f with text := f.text ++ sep ++ f.text }.line ++ '\n' :: t := by
  obtain ⟨d', g1, g2⟩ := cut hd h1 h2
  obtain ⟨s1, n1, s2, n2⟩ := half hd.safe hd.line m
  obtain ⟨d2, k1, k2⟩ := C66_merge_partial d' h t sep rows k _ _ hd.head hd.before hd.count s1 s2 n1 n2 g2
  exact ⟨d', d2, g1, k1, k2⟩

/-- **C178, disagreement.** The text of an event that is cut and put together again stands there twice, with a blank between: the event is not what it was. -/
theorem C178_text_violated {d : Doc} {h t : Str} {rows : List Str} {k s e m : Nat} {f : Fields} (hd : Holds d h rows k f s e t) (h1 : s < m) (h2 : m < e) :
    ∃ d' d2, splitEvent k (timeStamp m) d = (.ok (), d') ∧ (Merger.new k (k + 1)).apply d' = (.ok (), d2) ∧
      d2.text = h ++ table rows ++ { f with text := f.text ++ ' ' :: f.text }.line ++ '\n' :: t ∧ d2.text ≠ d.text := by
  obtain ⟨d', d2, g1, g2, g3⟩ := C178_times_partial (sep := " ".toList) hd h1 h2
  rw [show f.text ++ " ".toList ++ f.text = f.text ++ ' ' :: f.text by simp] at g3
  refine ⟨d', d2, g1, g2, g3, ?_⟩
  rw [g3, hd.text]
  intro e
  have hlen := congrArg List.length e
  have hl := line_length f (f.text ++ ' ' :: f.text)
  simp only [List.length_append] at hlen
  rw [List.length_append, List.length_cons] at hl
  omega

/-- A document with one event. -/
def exOne : Doc := ⟨exHead ++ table [] ++ (exFields "0:00:01.00" "0:00:02.50" "Hi (there)").line ++ '\n' :: [], Stack.new ⟨50, 0, 100⟩⟩

theorem exOne_holds : Holds exOne exHead [] 0 (exFields "0:00:01.00" "0:00:02.50" "Hi (there)") 100 250 [] :=
  ⟨exHead_head, (by intro r hr; cases hr), .nil, exFields_safe, by decide, ex_timeText (by decide), ex_timeText (by decide), by decide, rfl⟩

example : ∃ d' d2, splitEvent 0 "0:00:02.00".toList exOne = (.ok (), d') ∧ (Merger.new 0 1).apply d' = (.ok (), d2) ∧
    d2.text = exHead ++ "Dialogue: 0,0:00:01.00,0:00:02.50,Default,,0,0,0,,Hi (there) Hi (there)\n".toList := by
  obtain ⟨d', d2, h1, h2, h3, _⟩ := C178_text_violated exOne_holds (m := 200) (by decide) (by decide)
  exact ⟨d', d2, h1, h2, h3.trans (by decide +kernel)⟩

end Verif.Props.FluentMerge
