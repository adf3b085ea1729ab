import Verif.Model.FluentTime
import Verif.Props.EventCmd
/-!
# C176 — moving an event in time and back again
-/
namespace Verif.Props.FluentTime
open Verif Verif.Doc Verif.EventCmd Verif.FluentTime Verif.Props
open Verif.Spec.EventCmd

theorem stamp_char {n : Nat} {c : Char} (hc : c ∈ timeStamp n) : c.isDigit = true ∨ c = ':' ∨ c = '.' := by
  rw [← timeStamp_eq] at hc
  simp only [Time.formatAssTime, List.mem_append, List.mem_cons] at hc
  rcases hc with ((hc | rfl | hc) | rfl | hc) | rfl | hc
  · exact Or.inl (showNat_digits _ c hc)
  · exact Or.inr (Or.inl rfl)
  · exact Or.inl (showPad_digits _ _ c hc)
  · exact Or.inr (Or.inl rfl)
  · exact Or.inl (showPad_digits _ _ c hc)
  · exact Or.inr (Or.inr rfl)
  · exact Or.inl (showPad_digits _ _ c hc)

theorem stamp_plain (n : Nat) : Plain (timeStamp n) := by
  have hw : ∀ c ∈ timeStamp n, ¬ White c := by
    intro c hc
    rcases stamp_char hc with h | rfl | rfl
    · exact not_white_of (Formats.isWs_of_digit h)
    · exact not_white_of (by decide)
    · exact not_white_of (by decide)
  refine ⟨fun h => ?_, fun c hc => hw c (List.mem_of_mem_head? hc), fun c hc => hw c (List.mem_of_getLast? hc)⟩
  rcases stamp_char h with h | h | h
  · exact absurd h (by decide)
  · exact absurd h (by decide)
  · exact absurd h (by decide)

theorem stamp_time {n : Nat} (h : n < 2 ^ 31) : Verif.Spec.TimeText (timeStamp n) n := by
  rw [← timeStamp_eq]
  exact ((C02_parse_accepts_iff _ _).1 (C01_time_roundtrip n (by omega))).1

theorem safe_times {f : Fields} (h : f.Safe) (a b : Nat) : ({ f with start := timeStamp a, fin := timeStamp b } : Fields).Safe := by
  refine ⟨?_, h.ascii, h.text, h.guarded⟩
  have hp := h.plain
  simp only [List.forall_mem_cons] at hp ⊢
  exact ⟨hp.1, stamp_plain a, stamp_plain b, hp.2.2.2⟩

theorem all_times {f : Fields} {p : Char → Prop} (hp : ∀ n, ∀ c ∈ timeStamp n, p c) (h : ∀ c ∈ f.line, p c) (a b : Nat) :
    ∀ c ∈ ({ f with start := timeStamp a, fin := timeStamp b } : Fields).line, p c := by
  have h0 := line_all.1 h
  refine line_all.2 ⟨h0.1, h0.2.1, ?_⟩
  have h1 := h0.2.2
  simp only [List.forall_mem_cons] at h1 ⊢
  exact ⟨h1.1, hp a, hp b, h1.2.2.2⟩

/-- A document in which the event `f`, of the number `k`, stands behind other lines. -/
structure At (d : Doc) (h : Str) (rows : List Str) (k : Nat) (f : Fields) (t : Str) : Prop where
  head : Head h
  before : ∀ r ∈ rows, Row r
  count : Count rows k
  safe : f.Safe
  line : '\n' ∉ f.line
  tail : t = [] ∨ t.head? = some '\n'
  ascii : ∀ c ∈ f.line ++ t, c.toNat < 128
  text : d.text = h ++ table rows ++ f.line ++ t

theorem move {d : Doc} {h t : Str} {rows : List Str} {k : Nat} {f : Fields} (ha : At d h rows k f t) {so eo : Int} {s e s' e' : Nat}
    (hi : InRange f so eo s e) (m1 : Moved s so s') (m2 : Moved e eo e') :
    ∃ d', Does (timing [k] so eo) d (.ok (), d') ∧ At d' h rows k { f with start := timeStamp s', fin := timeStamp (max e' (s' + 1)) } t := by
  obtain ⟨d', h1, h2⟩ := C36_timing_partial d h t rows k f _ so eo ha.head ha.before ha.count ha.safe ha.line ha.tail ha.ascii
    ⟨s, e, s', e', hi, m1, m2, rfl⟩ ha.text
  refine ⟨d', h1, ha.head, ha.before, ha.count, safe_times ha.safe _ _, ?_, ha.tail, ?_, h2⟩
  · intro hm
    refine all_times (p := (· ≠ '\n')) ?_ (fun c hc e => ha.line (e ▸ hc)) s' (max e' (s' + 1)) _ hm rfl
    intro n c hc e
    rcases stamp_char hc with h | h | h
    · rw [e] at h; exact absurd h (by decide)
    · rw [e] at h; exact absurd h (by decide)
    · rw [e] at h; exact absurd h (by decide)
  · have h0 := ha.ascii
    rw [List.forall_mem_append] at h0 ⊢
    exact ⟨all_times ascii_timeStamp h0.1 _ _, h0.2⟩

/-- **C176, partial.** Moving an event twice is moving it once by the sum, if the first move does not take it before the beginning.

Missing: several events at once; text outside ASCII and events the commands do not handle, as in C36; times beyond 2^31; moves before the beginning
(see `C176_clamped_violated`). -/
theorem C176_twice_partial {d : Doc} {h t : Str} {rows : List Str} {k : Nat} {f : Fields} (ha : At d h rows k f t) {s e : Nat} {x y : Int}
    (hs : Verif.Spec.TimeText f.start s) (he : Verif.Spec.TimeText f.fin e) (hlt : s < e) (h0 : 0 ≤ s + x) (h1 : 0 ≤ s + x + y)
    (b0 : e < 2 ^ 31) (b1 : e + x < 2 ^ 31) (b2 : e + x + y < 2 ^ 31) :
    ∃ d1 d2 d3, Does (((Timer.mk []).event k).shift x) d (.ok (), d1) ∧ Does (((Timer.mk []).event k).shift y) d1 (.ok (), d2) ∧
      Does (((Timer.mk []).event k).shift (x + y)) d (.ok (), d3) ∧ d2.text = d3.text ∧
      d2.text = h ++ table rows ++ { f with start := timeStamp (s + x + y).toNat, fin := timeStamp (e + x + y).toNat }.line ++ t := by
  obtain ⟨d1, g1, a1⟩ := move ha (so := x) (eo := x) (s := s) (e := e) (s' := (s + x).toNat) (e' := (e + x).toNat)
    ⟨hs, he, by omega, b0, by omega, by omega, by omega, by omega⟩ (by unfold Moved; omega) (by unfold Moved; omega)
  rw [show max (e + x).toNat ((s + x).toNat + 1) = (e + x).toNat by omega] at a1
  obtain ⟨d2, g2, a2⟩ := move a1 (so := y) (eo := y) (s := (s + x).toNat) (e := (e + x).toNat) (s' := (s + x + y).toNat) (e' := (e + x + y).toNat)
    ⟨stamp_time (by omega), stamp_time (by omega), by omega, by omega, by omega, by omega, by omega, by omega⟩ (by unfold Moved; omega) (by unfold Moved; omega)
  rw [show max (e + x + y).toNat ((s + x + y).toNat + 1) = (e + x + y).toNat by omega] at a2
  obtain ⟨d3, g3, a3⟩ := move ha (so := x + y) (eo := x + y) (s := s) (e := e) (s' := (s + x + y).toNat) (e' := (e + x + y).toNat)
    ⟨hs, he, by omega, b0, by omega, by omega, by omega, by omega⟩ (by unfold Moved; omega) (by unfold Moved; omega)
  rw [show max (e + x + y).toNat ((s + x + y).toNat + 1) = (e + x + y).toNat by omega] at a3
  exact ⟨d1, d2, d3, g1, g2, g3, a2.text.trans a3.text.symm, a2.text⟩

/-- **C176, partial.** Moving an event and moving it back gives the text there was, if its times are written as usual and it is not taken before the
beginning.

Missing: as in `C176_twice_partial`. -/
theorem C176_back_partial {d : Doc} {h t : Str} {rows : List Str} {k : Nat} {f : Fields} (ha : At d h rows k f t) {s e : Nat} {x : Int}
    (hs : f.start = timeStamp s) (he : f.fin = timeStamp e) (hlt : s < e) (h0 : 0 ≤ s + x) (b0 : e < 2 ^ 31) (b1 : e + x < 2 ^ 31) :
    ∃ d1 d2, Does (((Timer.mk []).event k).shift x) d (.ok (), d1) ∧ Does (((Timer.mk []).event k).shift (-x)) d1 (.ok (), d2) ∧ d2.text = d.text := by
  obtain ⟨d1, d2, _, g1, g2, _, _, g⟩ := C176_twice_partial ha (x := x) (y := -x) (s := s) (e := e)
    (by rw [hs]; exact stamp_time (by omega)) (by rw [he]; exact stamp_time b0) hlt h0 (by omega) b0 b1 (by omega)
  refine ⟨d1, d2, g1, g2, ?_⟩
  rw [g, ha.text, show (s + x + -x).toNat = s by omega, show (e + x + -x).toNat = e by omega, ← hs, ← he]

/-- **C176, disagreement.** An event taken before the beginning does not come back: it then starts as late as it was moved. -/
theorem C176_clamped_violated {d : Doc} {h t : Str} {rows : List Str} {k : Nat} {f : Fields} (ha : At d h rows k f t) {s e : Nat} {x : Int}
    (hs : Verif.Spec.TimeText f.start s) (he : Verif.Spec.TimeText f.fin e) (hlt : s < e) (h0 : s + x < 0) (b0 : e < 2 ^ 31) (b1 : -(2 ^ 30) < x) :
    ∃ d1 d2, Does (((Timer.mk []).event k).shift x) d (.ok (), d1) ∧ Does (((Timer.mk []).event k).shift (-x)) d1 (.ok (), d2) ∧
      s < (-x).toNat ∧ ∃ fin, d2.text = h ++ table rows ++ { f with start := timeStamp (-x).toNat, fin := fin }.line ++ t := by
  obtain ⟨d1, g1, a1⟩ := move ha (so := x) (eo := x) (s := s) (e := e) (s' := 0) (e' := (e + x).toNat)
    ⟨hs, he, by omega, b0, by omega, by omega, by omega, by omega⟩ (by unfold Moved; omega) (by unfold Moved; omega)
  obtain ⟨d2, g2, a2⟩ := move a1 (so := -x) (eo := -x) (s := 0) (e := max (e + x).toNat (0 + 1)) (s' := (-x).toNat)
    (e' := (((max (e + x).toNat (0 + 1) : Nat) : Int) + -x).toNat)
    ⟨stamp_time (by omega), stamp_time (by omega), by omega, by omega, by omega, by omega, by omega, by omega⟩ (by unfold Moved; omega) (by unfold Moved; omega)
  exact ⟨d1, d2, g1, g2, by omega, _, a2.text⟩

/-- A document with one event. -/
def exOne : Doc := ⟨exHead ++ table [] ++ (exFields "0:00:01.00" "0:00:02.50" "Hi (there)").line ++ "\n".toList, Stack.new ⟨50, 0, 100⟩⟩

theorem exOne_at : At exOne exHead [] 0 (exFields "0:00:01.00" "0:00:02.50" "Hi (there)") "\n".toList :=
  ⟨exHead_head, (by intro r hr; cases hr), .nil, exFields_safe, by decide, Or.inr rfl, by decide, rfl⟩

example : ∃ d1 d2, Does (((Timer.mk []).event 0).shift 500) exOne (.ok (), d1) ∧ Does (((Timer.mk []).event 0).shift (-500)) d1 (.ok (), d2) ∧
    d2.text = exOne.text :=
  C176_back_partial exOne_at (s := 100) (e := 250) (x := 500) (by decide) (by decide) (by decide) (by decide) (by decide) (by decide)

/-- **C176, partial.** Moving only the start, or only the end, leaves the other time as it is; the two together are the adjustment.

Missing: as in `C176_twice_partial`. -/
theorem C176_one_end_partial {d : Doc} {h t : Str} {rows : List Str} {k : Nat} {f : Fields} (ha : At d h rows k f t) {s e : Nat} {x y : Int}
    (hs : f.start = timeStamp s) (he : f.fin = timeStamp e) (h0 : 0 ≤ s + x) (h1 : s + x < e) (h2 : s < e + y) (h3 : s + x < e + y)
    (b0 : s < 2 ^ 31) (b1 : e < 2 ^ 31) (b2 : e + y < 2 ^ 31) :
    (∃ d1, Does (((Timer.mk []).event k).shiftStart x) d (.ok (), d1) ∧
      d1.text = h ++ table rows ++ { f with start := timeStamp (s + x).toNat }.line ++ t) ∧
    (∃ d1, Does (((Timer.mk []).event k).shiftEnd y) d (.ok (), d1) ∧ d1.text = h ++ table rows ++ { f with fin := timeStamp (e + y).toNat }.line ++ t) ∧
    ∃ d1, Does (((Timer.mk []).event k).adjust x y) d (.ok (), d1) ∧
      d1.text = h ++ table rows ++ { f with start := timeStamp (s + x).toNat, fin := timeStamp (e + y).toNat }.line ++ t := by
  have ts : Verif.Spec.TimeText f.start s := by rw [hs]; exact stamp_time b0
  have te : Verif.Spec.TimeText f.fin e := by rw [he]; exact stamp_time b1
  refine ⟨?_, ?_, ?_⟩
  · obtain ⟨d1, g1, a1⟩ := move ha (so := x) (eo := 0) (s := s) (e := e) (s' := (s + x).toNat) (e' := e)
      ⟨ts, te, b0, b1, by omega, by omega, by omega, by omega⟩ (by unfold Moved; omega) (by unfold Moved; omega)
    rw [show max e ((s + x).toNat + 1) = e by omega, ← he] at a1
    exact ⟨d1, g1, a1.text⟩
  · obtain ⟨d1, g1, a1⟩ := move ha (so := 0) (eo := y) (s := s) (e := e) (s' := s) (e' := (e + y).toNat)
      ⟨ts, te, b0, b1, by omega, by omega, by omega, by omega⟩ (by unfold Moved; omega) (by unfold Moved; omega)
    rw [show max (e + y).toNat (s + 1) = (e + y).toNat by omega, ← hs] at a1
    exact ⟨d1, g1, a1.text⟩
  · obtain ⟨d1, g1, a1⟩ := move ha (so := x) (eo := y) (s := s) (e := e) (s' := (s + x).toNat) (e' := (e + y).toNat)
      ⟨ts, te, b0, b1, by omega, by omega, by omega, by omega⟩ (by unfold Moved; omega) (by unfold Moved; omega)
    rw [show max (e + y).toNat ((s + x).toNat + 1) = (e + y).toNat by omega] at a1
    exact ⟨d1, g1, a1.text⟩

end Verif.Props.FluentTime
