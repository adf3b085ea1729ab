import Verif.Model.FluentEffect
import Verif.Spec.FluentEffect
import Verif.Props.FluentTime
/-!
# C177 — the effect of an event after any number of changes
-/
namespace Verif.Props.FluentEffect
open Verif Verif.Doc Verif.EventCmd Verif.FluentEffect Verif.Props
open Verif.Spec.EventCmd Verif.Spec.FluentEffect
open Verif.Props.FluentTime (At)

/-- A word the commands handle: not empty, in ASCII, on one line, without commas and outer blanks. -/
structure Good (w : Str) : Prop where
  some : w ≠ []
  plain : Plain w
  ascii : ∀ c ∈ w, c.toNat < 128
  line : '\n' ∉ w

/-- The words an operation brings are such. -/
def Fits : Change → Prop
  | .set e | .append e | .prepend e => FluentEffect.Good e
  | .clear => True

/-- An operation carried out on the event `k`. -/
def carry (k : Nat) : Change → Nat → Doc → Option (Outcome Unit × Doc)
  | .set e => (Effector.event {} k).set e
  | .clear => (Effector.event {} k).clear
  | .append e => (Effector.event {} k).append e
  | .prepend e => (Effector.event {} k).prepend e

/-- Operations carried out one after the other, all with success. -/
inductive Runs (k : Nat) : List Change → Doc → Doc → Prop
  | nil (d) : Runs k [] d d
  | cons {op ops d d1 d2} : Does (carry k op) d (.ok (), d1) → Runs k ops d1 d2 → Runs k (op :: ops) d d2

theorem spaced_cons (w : Str) {ws : List Str} (h : ws ≠ []) : spaced (w :: ws) = w ++ ' ' :: spaced ws := by
  cases ws with
  | nil => exact absurd rfl h
  | cons => rfl

theorem spaced_append {ws : List Str} (h : ws ≠ []) (e : Str) : spaced (ws ++ [e]) = spaced ws ++ ' ' :: e := by
  induction ws with
  | nil => exact absurd rfl h
  | cons w ws ih =>
    by_cases hw : ws = []
    · subst hw; rfl
    · rw [List.cons_append, spaced_cons w (by simp), ih hw, spaced_cons w hw, List.append_assoc, List.cons_append]

theorem spaced_nil {ws : List Str} (h : ∀ w ∈ ws, Good w) : spaced ws = [] ↔ ws = [] := by
  cases ws with
  | nil => exact ⟨fun _ => rfl, fun _ => rfl⟩
  | cons w ws =>
    have hw := (h w (by simp)).some
    by_cases hs : ws = []
    · subst hs; exact ⟨fun e => absurd e hw, fun e => absurd e (by simp)⟩
    · rw [spaced_cons w hs]; simp

theorem spaced_all {ws : List Str} {p : Char → Prop} (hb : p ' ') (h : ∀ w ∈ ws, ∀ c ∈ w, p c) : ∀ c ∈ spaced ws, p c := by
  induction ws with
  | nil => intro c hc; cases hc
  | cons w ws ih =>
    by_cases hs : ws = []
    · subst hs; exact h w (by simp)
    · rw [spaced_cons w hs]
      intro c hc
      rcases List.mem_append.1 hc with hc | hc
      · exact h w (by simp) c hc
      · rcases List.mem_cons.1 hc with rfl | hc
        · exact hb
        · exact ih (fun x hx => h x (by simp [hx])) c hc

theorem spaced_trimmed {ws : List Str} (h : ∀ w ∈ ws, Good w) : Trimmed (spaced ws) := by
  induction ws with
  | nil => exact ⟨fun c hc => (by cases hc), fun c hc => (by cases hc)⟩
  | cons w ws ih =>
    have hw := h w (by simp)
    by_cases hs : ws = []
    · subst hs; exact hw.plain.2
    · have ih := ih (fun x hx => h x (by simp [hx]))
      have hn : spaced ws ≠ [] := fun e => hs ((spaced_nil (fun x hx => h x (by simp [hx]))).1 e)
      rw [spaced_cons w hs]
      refine ⟨fun c hc => hw.plain.2.1 c ?_, fun c hc => ih.2 c ?_⟩
      · cases w with
        | nil => exact absurd rfl hw.some
        | cons a w => exact hc
      · rw [List.getLast?_append, List.getLast?_cons] at hc
        cases e : (spaced ws).getLast? with
        | none => exact absurd (List.getLast?_eq_none_iff.1 e) hn
        | some x => rw [e] at hc; simpa using hc

theorem words_good {op : Change} {ws : List Str} (ho : Fits op) (h : ∀ w ∈ ws, Good w) : ∀ w ∈ op.words ws, Good w := by
  intro w hw
  cases op with
  | set e => cases List.mem_singleton.1 hw; exact ho
  | clear => cases hw
  | append e =>
    rcases List.mem_append.1 hw with hw | hw
    · exact h w hw
    · cases List.mem_singleton.1 hw; exact ho
  | prepend e =>
    rcases List.mem_cons.1 hw with rfl | hw
    · exact ho
    · exact h w hw

theorem at_effect {d d' : Doc} {h t : Str} {rows : List Str} {k : Nat} {f : Fields} (ha : At d h rows k f t) {ws : List Str} (hg : ∀ w ∈ ws, Good w)
    (hd : d'.text = h ++ table rows ++ { f with effect := spaced ws }.line ++ t) : At d' h rows k { f with effect := spaced ws } t := by
  have hasc := ha.ascii
  rw [List.forall_mem_append] at hasc
  have all : ∀ p : Char → Prop, (∀ c ∈ f.line, p c) → (∀ c ∈ spaced ws, p c) → ∀ c ∈ ({ f with effect := spaced ws } : Fields).line, p c := by
    intro p h1 h2
    have h0 := line_all.1 h1
    refine line_all.2 ⟨h0.1, h0.2.1, ?_⟩
    have h3 := h0.2.2
    simp only [List.forall_mem_cons] at h3 ⊢
    obtain ⟨a1, a2, a3, a4, a5, a6, a7, a8, _, a10⟩ := h3
    exact ⟨a1, a2, a3, a4, a5, a6, a7, a8, h2, a10⟩
  have asc : ∀ c ∈ spaced ws, c.toNat < 128 := spaced_all (by decide) (fun w hw => (hg w hw).ascii)
  refine ⟨ha.head, ha.before, ha.count, ⟨?_, asc, ha.safe.text, ha.safe.guarded⟩, ?_, ha.tail, ?_, hd⟩
  · have hp := ha.safe.plain
    simp only [List.forall_mem_cons] at hp ⊢
    obtain ⟨a1, a2, a3, a4, a5, a6, a7, a8, _, a10⟩ := hp
    refine ⟨a1, a2, a3, a4, a5, a6, a7, a8, ⟨fun hm => ?_, spaced_trimmed hg⟩, a10⟩
    exact spaced_all (p := (· ≠ ',')) (by decide) (fun w hw c hc e => (hg w hw).plain.1 (e ▸ hc)) _ hm rfl
  · intro hm
    exact all (· ≠ '\n') (fun c hc e => ha.line (e ▸ hc)) (spaced_all (by decide) (fun w hw c hc e => (hg w hw).line (e ▸ hc))) _ hm rfl
  · rw [List.forall_mem_append]
    exact ⟨all _ hasc.1 asc, hasc.2⟩

theorem op_step {d : Doc} {h t : Str} {rows : List Str} {k : Nat} {f : Fields} (ha : At d h rows k f t) {ws : List Str} (hg : ∀ w ∈ ws, Good w)
    (he : f.effect = spaced ws) {op : Change} (ho : Fits op) :
    ∃ d', Does (carry k op) d (.ok (), d') ∧ At d' h rows k { f with effect := spaced (op.words ws) } t := by
  have key : ∀ e : Str, (∀ c ∈ e, c.toNat < 128) → _ := fun e h1 => C37_effect_partial d h t e rows k f ha.head ha.before ha.count ha.safe ha.line ha.tail
    (by rw [List.forall_mem_append]; exact ⟨ha.ascii, h1⟩) ha.text
  have wg := words_good ho hg
  cases op with
  | set e =>
    obtain ⟨d', g1, g2⟩ := (key e ho.ascii).1
    exact ⟨d', g1, at_effect ha wg g2⟩
  | clear =>
    obtain ⟨d', g1, g2⟩ := (key [] (fun c hc => by cases hc)).2.1
    exact ⟨d', g1, at_effect ha wg g2⟩
  | append e =>
    by_cases hw : ws = []
    · subst hw
      obtain ⟨d', g1, g2⟩ := ((key e ho.ascii).2.2.2 he).1
      exact ⟨d', g1, at_effect ha wg g2⟩
    · obtain ⟨d', g1, g2⟩ := ((key e ho.ascii).2.2.1 (by rw [he]; exact fun x => hw ((spaced_nil hg).1 x))).1
      refine ⟨d', g1, at_effect ha wg ?_⟩
      rw [g2, he]
      exact congrArg (fun x => h ++ table rows ++ ({ f with effect := x } : Fields).line ++ t) (spaced_append hw e).symm
  | prepend e =>
    by_cases hw : ws = []
    · subst hw
      obtain ⟨d', g1, g2⟩ := ((key e ho.ascii).2.2.2 he).2
      exact ⟨d', g1, at_effect ha wg g2⟩
    · obtain ⟨d', g1, g2⟩ := ((key e ho.ascii).2.2.1 (by rw [he]; exact fun x => hw ((spaced_nil hg).1 x))).2
      refine ⟨d', g1, at_effect ha wg ?_⟩
      rw [g2, he]
      exact congrArg (fun x => h ++ table rows ++ ({ f with effect := x } : Fields).line ++ t) (spaced_cons e hw).symm

/-- **C177, partial.** After any number of changes of the effect of an event, its effect is the words set, appended and prepended since it was last
cleared or set, with blanks between them, and nothing else in the document has changed.

Missing: several events at once; text outside ASCII, and events and words the commands do not handle, as in C37; empty words (see `C177_empty_violated`). -/
theorem C177_history_partial {d : Doc} {h t : Str} {rows : List Str} {k : Nat} {f : Fields} (ha : At d h rows k f t) {ws : List Str}
    (hg : ∀ w ∈ ws, Good w) (he : f.effect = spaced ws) {ops : List Change} (ho : ∀ op ∈ ops, Fits op) :
    ∃ d', Runs k ops d d' ∧ d'.text = h ++ table rows ++ { f with effect := spaced (ops.foldl (fun ws op => Change.words op ws) ws) }.line ++ t := by
  induction ops generalizing d f ws with
  | nil => exact ⟨d, .nil d, by rw [ha.text, List.foldl_nil, ← he]⟩
  | cons op ops ih =>
    obtain ⟨d1, g1, a1⟩ := op_step ha hg he (ho op (by simp))
    obtain ⟨d2, g2, e2⟩ := ih a1 (words_good (ho op (by simp)) hg) rfl (fun x hx => ho x (by simp [hx]))
    exact ⟨d2, .cons g1 g2, e2⟩

/-- **C177, disagreement.** Appending nothing to an effect is not doing nothing: a blank is added. -/
theorem C177_empty_violated {d : Doc} {h t : Str} {rows : List Str} {k : Nat} {f : Fields} (ha : At d h rows k f t) (hf : f.effect ≠ []) :
    ∃ d', Does (carry k (.append [])) d (.ok (), d') ∧ d'.text = h ++ table rows ++ { f with effect := f.effect ++ " ".toList }.line ++ t :=
  ((C37_effect_partial d h t [] rows k f ha.head ha.before ha.count ha.safe ha.line ha.tail
    (by rw [List.append_nil]; exact ha.ascii) ha.text).2.2.1 hf).1

theorem good_of {w : Str} (h1 : w ≠ []) (h2 : ',' ∉ w) (h3 : ∀ c ∈ w.head?, isWs c = false) (h4 : ∀ c ∈ w.getLast?, isWs c = false)
    (h5 : ∀ c ∈ w, c.toNat < 128) (h6 : '\n' ∉ w) : Good w := ⟨h1, ⟨h2, trimmed_of h3 h4⟩, h5, h6⟩

example : ∃ d', Runs 0 [.append "Karaoke".toList, .prepend "fast".toList, .append "Scroll up;0;100".toList] FluentTime.exOne d' ∧
    d'.text = exHead ++ "Dialogue: 0,0:00:01.00,0:00:02.50,Default,,0,0,0,fast Karaoke Scroll up;0;100,Hi (there)\n".toList := by
  obtain ⟨d', h1, h2⟩ := C177_history_partial FluentTime.exOne_at (ws := []) (fun w hw => by cases hw) rfl
    (ops := [.append "Karaoke".toList, .prepend "fast".toList, .append "Scroll up;0;100".toList]) (by
      intro op hop
      simp only [List.mem_cons, List.not_mem_nil, or_false] at hop
      rcases hop with rfl | rfl | rfl
      · exact good_of (w := "Karaoke".toList) (by decide) (by decide) (by decide) (by decide) (by decide) (by decide)
      · exact good_of (w := "fast".toList) (by decide) (by decide) (by decide) (by decide) (by decide) (by decide)
      · exact good_of (w := "Scroll up;0;100".toList) (by decide) (by decide) (by decide) (by decide) (by decide) (by decide))
  exact ⟨d', h1, h2.trans (by decide +kernel)⟩

end Verif.Props.FluentEffect
