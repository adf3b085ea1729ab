import Verif.Spec.Update
import Verif.Lemmas.Handlers
import Verif.Lemmas.InfoCmd
import Verif.Lemmas.Bytes
import Verif.Lemmas.Ast
import Verif.Lemmas.Sort
namespace Verif.Update
open Verif
open Verif.Ast
open Verif.Parser
open Verif.Spec.Update
open Verif.Spec.InfoCmd (Stripped)

/-! ## Reading a line -/

theorem eventKind_some {x : Str} {k : Ast.Kind} {d : Str} (h : eventKind x = some (k, d)) : x = k.str ++ ':' :: d := by
  unfold eventKind at h
  have key : ∀ (k0 : Ast.Kind) (e : Option (Ast.Kind × Str)), (match stripPrefix (k0.str ++ [':']) x with | some d => some (k0, d) | none => e) = some (k, d) →
      x = k.str ++ ':' :: d ∨ e = some (k, d) := by
    intro k0 e h
    cases hs : stripPrefix (k0.str ++ [':']) x with
    | none => rw [hs] at h; exact .inr h
    | some d0 =>
      rw [hs] at h
      simp only [Option.some.injEq, Prod.mk.injEq] at h
      left
      rw [stripPrefix_iff.1 hs, h.1, h.2, List.append_assoc]; rfl
  rcases key _ _ h with h | h
  · exact h
  rcases key _ _ h with h | h
  · exact h
  rcases key _ _ h with h | h
  · exact h
  rcases key _ _ h with h | h
  · exact h
  rcases key _ _ h with h | h
  · exact h
  rcases key _ _ h with h | h
  · exact h
  cases h

theorem isEventLine_iff {x : Str} : isEventLine x = true ↔ ∃ (k : Ast.Kind) (d : Str), x = k.str ++ ':' :: d := by
  unfold isEventLine
  simp only [Bool.or_eq_true, Handlers.startsWith_iff']
  constructor
  · rintro (((((⟨t, h⟩ | ⟨t, h⟩) | ⟨t, h⟩) | ⟨t, h⟩) | ⟨t, h⟩) | ⟨t, h⟩)
    · exact ⟨.dialogue, t, h⟩
    · exact ⟨.comment, t, h⟩
    · exact ⟨.picture, t, h⟩
    · exact ⟨.sound, t, h⟩
    · exact ⟨.movie, t, h⟩
    · exact ⟨.command, t, h⟩
  · rintro ⟨k, d, h⟩
    cases k
    · exact .inl (.inl (.inl (.inl (.inl ⟨d, h⟩))))
    · exact .inl (.inl (.inl (.inl (.inr ⟨d, h⟩))))
    · exact .inl (.inl (.inl (.inr ⟨d, h⟩)))
    · exact .inl (.inl (.inr ⟨d, h⟩))
    · exact .inl (.inr ⟨d, h⟩)
    · exact .inr ⟨d, h⟩

theorem kind_str_reserved (k : Ast.Kind) : k.str ∈ reserved := by cases k <;> decide

theorem kind_str_colon (k : Ast.Kind) : ':' ∉ k.str := by cases k <;> decide

/-- A text has one part before its first colon. -/
theorem colon_unique {a b c d : Str} (h : a ++ ':' :: b = c ++ ':' :: d) (ha : ':' ∉ a) (hc : ':' ∉ c) : a = c ∧ b = d := by
  have h1 := splitOnce_append (sep := ':') b ha
  rw [h, splitOnce_append d hc] at h1
  simp only [Option.some.injEq, Prod.mk.injEq] at h1
  exact ⟨h1.1.symm, h1.2.symm⟩

theorem stripped_trim (v : Str) : Stripped v (trim v) := InfoCmd.stripped_trim v

theorem parseEvent_kind {x : Str} {f : List Str} {e : Event} (h : parseEvent x f = some e) : ∃ (k : Ast.Kind) (d : Str), x = k.str ++ ':' :: d := by
  unfold parseEvent at h
  cases hk : eventKind x with
  | none => rw [hk] at h; cases h
  | some p => exact ⟨p.1, p.2, eventKind_some hk⟩

theorem parseAuto_iff {s : Script} {line : Str} {n : Nat} {c : Content} : parseAuto s line n = .ok c ↔ Reads s n line c := by
  constructor
  · intro h
    unfold parseAuto at h
    cases hs : stripPrefix "Style:".toList (trim line) with
    | some d =>
      rw [hs] at h
      simp only at h
      unfold styleIn at h
      cases hp : parseStyle (trim d) (s.stylesFmt.getD styleFormat) with
      | none => rw [hp] at h; cases h
      | some st =>
        rw [hp] at h
        injection h with h
        subst h
        have := stripped_trim line
        rw [stripPrefix_iff.1 hs] at this
        exact .style this (stripped_trim d) hp
    | none =>
      rw [hs] at h
      simp only at h
      by_cases he : isEventLine (trim line) = true
      · rw [if_pos he] at h
        unfold eventIn at h
        cases hp : parseEvent (trim line) (s.eventsFmt.getD eventFormat) with
        | none => rw [hp] at h; cases h
        | some e =>
          rw [hp] at h
          injection h with h
          subst h
          exact .event (stripped_trim line) hp
      · rw [if_neg he] at h
        by_cases hf : startsWith "Format:".toList (trim line) = true
        · rw [if_pos hf] at h; cases h
        · rw [if_neg hf] at h
          unfold fieldIn at h
          cases hc : splitOnce ':' (trim line) with
          | none => rw [hc] at h; cases h
          | some p =>
            obtain ⟨k, v⟩ := p
            rw [hc] at h
            injection h with h
            subst h
            obtain ⟨e, hk⟩ := splitOnce_some hc
            have hst := stripped_trim line
            rw [e] at hst
            refine .field hst hk ?_ (stripped_trim k) (stripped_trim v)
            intro hr
            have ev : ∀ k0 : Ast.Kind, k ≠ k0.str := fun k0 h0 => he (isEventLine_iff.2 ⟨k0, v, by rw [e, h0]⟩)
            unfold reserved at hr
            simp only [List.mem_cons, List.not_mem_nil, or_false] at hr
            rcases hr with hr | hr | hr | hr | hr | hr | hr | hr
            · have : stripPrefix "Style:".toList (trim line) = some v := stripPrefix_iff.2 (by rw [e, hr]; rfl)
              rw [this] at hs; cases hs
            · exact ev .dialogue hr
            · exact ev .comment hr
            · exact ev .picture hr
            · exact ev .sound hr
            · exact ev .movie hr
            · exact ev .command hr
            · exact hf (Handlers.startsWith_iff'.2 ⟨v, by rw [e, hr]; rfl⟩)
  · intro h
    unfold parseAuto
    cases h with
    | style h1 h2 h3 =>
      rw [Handlers.stripped_eq h1, stripPrefix_iff.2 rfl]
      simp only
      unfold styleIn
      rw [Handlers.stripped_eq h2, h3]; rfl
    | @event x e h1 h2 =>
      rw [Handlers.stripped_eq h1]
      obtain ⟨k, d, hk⟩ := parseEvent_kind h2
      have hns : stripPrefix "Style:".toList x = none := by
        cases hs : stripPrefix "Style:".toList x with
        | none => rfl
        | some d' =>
          have e := stripPrefix_iff.1 hs
          rw [hk] at e
          have e' : k.str ++ ':' :: d = "Style".toList ++ ':' :: d' := e
          have := (colon_unique e' (kind_str_colon k) (by decide)).1
          cases k <;> exact absurd this (by decide)
      rw [hns]
      simp only
      rw [if_pos (isEventLine_iff.2 ⟨k, d, hk⟩)]
      unfold eventIn
      rw [h2]; rfl
    | @field k v k' v' h1 h2 h3 h4 h5 =>
      rw [Handlers.stripped_eq h1]
      have hns : stripPrefix "Style:".toList (k ++ ':' :: v) = none := by
        cases hs : stripPrefix "Style:".toList (k ++ ':' :: v) with
        | none => rfl
        | some d' =>
          have e := stripPrefix_iff.1 hs
          have e : k ++ ':' :: v = "Style".toList ++ ':' :: d' := e
          exact absurd (by rw [(colon_unique e h2 (by decide)).1]; decide) h3
      rw [hns]
      simp only
      have hne : ¬ isEventLine (k ++ ':' :: v) = true := by
        intro he
        obtain ⟨k0, d, e⟩ := isEventLine_iff.1 he
        rw [(colon_unique e h2 (kind_str_colon k0)).1] at h3
        exact h3 (kind_str_reserved k0)
      rw [if_neg hne]
      have hnf : ¬ startsWith "Format:".toList (k ++ ':' :: v) = true := by
        intro hf
        obtain ⟨d, e⟩ := Handlers.startsWith_iff'.1 hf
        have e : k ++ ':' :: v = "Format".toList ++ ':' :: d := e
        rw [(colon_unique e h2 (by decide)).1] at h3
        exact h3 (by decide)
      rw [if_neg hnf]
      unfold fieldIn
      rw [splitOnce_append v h2]
      simp only
      rw [Handlers.stripped_eq h4, Handlers.stripped_eq h5]

/-! ## Finding the place -/

theorem holds_iff {o : Nat} {s : Span} : holds o s = true ↔ Within o s := by
  unfold holds Within
  rw [Bool.and_eq_true, decide_eq_true_eq, decide_eq_true_eq]

theorem span_places (s : Section) : span s = merged (places s) ∨ ∃ f sp, s = .info f sp := by
  cases s with
  | info f sp => exact .inr ⟨f, sp, rfl⟩
  | styles l => exact .inl rfl
  | events l => exact .inl rfl
  | fonts l => exact .inl rfl
  | graphics l => exact .inl rfl

theorem merged_any (o : Nat) (l : List Span) : (merged l).any (holds o) = true ↔ ∃ a b, l.head? = some a ∧ l.getLast? = some b ∧ a.start ≤ o ∧ o < b.stop := by
  unfold merged
  cases ha : l.head? with
  | none => simp
  | some a =>
    cases hb : l.getLast? with
    | none => simp
    | some b =>
      simp only [Option.any_some, holds_iff]
      unfold Within
      simp

theorem covers_iff {o : Nat} {s : Section} : covers o s = true ↔ Spanned o s := by
  unfold covers Spanned
  rcases span_places s with h | ⟨f, sp, rfl⟩
  · rw [h, merged_any]
  · show (some sp).any (holds o) = true ↔ ∃ a b, some sp = some a ∧ some sp = some b ∧ a.start ≤ o ∧ o < b.stop
    simp only [Option.any_some, holds_iff]
    unfold Within
    simp

theorem replaceFirst_some {α : Type} {p : α → Bool} {x : α} {l : List α} {old : α} {l' : List α} (h : replaceFirst p x l = some (old, l')) :
    ∃ a b, l = a ++ old :: b ∧ l' = a ++ x :: b ∧ (∀ y ∈ a, p y = false) ∧ p old = true := by
  induction l generalizing l' with
  | nil => cases h
  | cons y l ih =>
    rw [replaceFirst] at h
    by_cases hp : p y = true
    · rw [if_pos hp] at h
      simp only [Option.some.injEq, Prod.mk.injEq] at h
      exact ⟨[], l, by rw [← h.1]; rfl, by rw [← h.2]; rfl, by simp, by rw [← h.1]; exact hp⟩
    · rw [if_neg hp] at h
      cases hr : replaceFirst p x l with
      | none => rw [hr] at h; cases h
      | some r =>
        obtain ⟨o, r⟩ := r
        rw [hr] at h
        simp only [Option.map_some, Option.some.injEq, Prod.mk.injEq] at h
        obtain ⟨ho, hl⟩ := h
        subst ho
        obtain ⟨a, b, h1, h2, h3, h4⟩ := ih hr
        refine ⟨y :: a, b, by rw [h1]; rfl, by rw [← hl, h2]; rfl, ?_, h4⟩
        intro z hz
        rcases List.mem_cons.1 hz with rfl | hz
        · simpa using hp
        · exact h3 z hz

theorem replaceFirst_none {α : Type} {p : α → Bool} {x : α} {l : List α} : replaceFirst p x l = none ↔ ∀ y ∈ l, p y = false := by
  induction l with
  | nil => simp [replaceFirst]
  | cons y l ih =>
    rw [replaceFirst]
    by_cases hp : p y = true
    · rw [if_pos hp]; simp [hp]
    · rw [if_neg hp]
      simp only [Option.map_eq_none_iff, ih, List.mem_cons, forall_eq_or_imp]
      constructor
      · intro h; exact ⟨by simpa using hp, h⟩
      · intro h; exact h.2

theorem replaceFirst_mid {α : Type} {p : α → Bool} {x old : α} {a b : List α} (h1 : ∀ y ∈ a, p y = false) (h2 : p old = true) :
    replaceFirst p x (a ++ old :: b) = some (old, a ++ x :: b) := by
  induction a with
  | nil => rw [List.nil_append, replaceFirst, if_pos h2]; rfl
  | cons y a ih =>
    have := h1 y (by simp)
    rw [List.cons_append, replaceFirst, if_neg (by simp [this]), ih (fun z hz => h1 z (List.mem_cons_of_mem _ hz))]
    rfl

theorem findSection_some {o : Nat} {l pre post : List Section} {s : Section} (h : findSection o l = some (pre, s, post)) :
    l = pre ++ s :: post ∧ (∀ x ∈ pre, ¬ Spanned o x) ∧ Spanned o s := by
  induction l generalizing pre with
  | nil => cases h
  | cons y l ih =>
    rw [findSection] at h
    by_cases hc : covers o y = true
    · rw [if_pos hc] at h
      simp only [Option.some.injEq, Prod.mk.injEq] at h
      obtain ⟨rfl, rfl, rfl⟩ := h
      exact ⟨rfl, by simp, covers_iff.1 hc⟩
    · rw [if_neg hc] at h
      cases hr : findSection o l with
      | none => rw [hr] at h; cases h
      | some r =>
        obtain ⟨p, s', q⟩ := r
        rw [hr] at h
        simp only [Option.map_some, Option.some.injEq, Prod.mk.injEq] at h
        obtain ⟨rfl, rfl, rfl⟩ := h
        obtain ⟨h1, h2, h3⟩ := ih hr
        refine ⟨by rw [h1]; rfl, ?_, h3⟩
        intro x hx
        rcases List.mem_cons.1 hx with rfl | hx
        · exact fun h => hc (covers_iff.2 h)
        · exact h2 x hx

theorem findSection_mid {o : Nat} {pre post : List Section} {s : Section} (h1 : ∀ x ∈ pre, ¬ Spanned o x) (h2 : Spanned o s) :
    findSection o (pre ++ s :: post) = some (pre, s, post) := by
  induction pre with
  | nil => rw [List.nil_append, findSection, if_pos (covers_iff.2 h2)]
  | cons y l ih =>
    rw [List.cons_append, findSection, if_neg (fun h => h1 y (by simp) (covers_iff.1 h)), ih (fun x hx => h1 x (List.mem_cons_of_mem _ hx))]
    rfl

theorem not_holds {α : Type} {o : Nat} {a : List (α × Span)} : (∀ y ∈ a, holds o y.2 = false) ↔ ∀ y ∈ a, ¬ Within o y.2 := by
  constructor
  · intro h y hy hw
    have := h y hy
    rw [holds_iff.2 hw] at this
    cases this
  · intro h y hy
    cases hh : holds o y.2 with
    | false => rfl
    | true => exact absurd (holds_iff.1 hh) (h y hy)

theorem putLine_put {o n : Nat} {sec : Section} {new old : Content} {sec' : Section} {c : Option Change} (h : putLine o n sec new = .ok (old, sec', c)) :
    Put o sec new old sec' := by
  cases sec with
  | fonts l => cases new <;> cases h
  | graphics l => cases new <;> cases h
  | styles l =>
    cases new with
    | event e => cases h
    | field k v => cases h
    | style st =>
      unfold putLine at h
      simp only at h
      cases hr : replaceFirst (fun s => holds o s.2) st l with
      | none => rw [hr] at h; cases h
      | some r =>
        obtain ⟨o1, l1⟩ := r
        rw [hr] at h
        simp only [Except.ok.injEq, Prod.mk.injEq] at h
        obtain ⟨rfl, rfl, _⟩ := h
        obtain ⟨a, b, rfl, rfl, h3, h4⟩ := replaceFirst_some hr
        exact .style (not_holds.1 h3) (holds_iff.1 h4)
  | events l =>
    cases new with
    | style e => cases h
    | field k v => cases h
    | event st =>
      unfold putLine at h
      simp only at h
      cases hr : replaceFirst (fun s => holds o s.2) st l with
      | none => rw [hr] at h; cases h
      | some r =>
        obtain ⟨o1, l1⟩ := r
        rw [hr] at h
        simp only [Except.ok.injEq, Prod.mk.injEq] at h
        obtain ⟨rfl, rfl, _⟩ := h
        obtain ⟨a, b, rfl, rfl, h3, h4⟩ := replaceFirst_some hr
        exact .event (not_holds.1 h3) (holds_iff.1 h4)
  | info fs sp =>
    cases new with
    | style e => cases h
    | event e => cases h
    | field k v =>
      unfold putLine at h
      simp only at h
      cases hr : replaceFirst (fun f => decide (f.1 = k)) (k, v) fs with
      | none =>
        rw [hr] at h
        simp only [Except.ok.injEq, Prod.mk.injEq] at h
        obtain ⟨rfl, rfl, _⟩ := h
        refine .newField ?_
        intro x hx
        have := replaceFirst_none.1 hr x hx
        simpa using this
      | some r =>
        obtain ⟨⟨k1, v1⟩, l1⟩ := r
        rw [hr] at h
        simp only [Except.ok.injEq, Prod.mk.injEq] at h
        obtain ⟨rfl, rfl, _⟩ := h
        obtain ⟨a, b, rfl, rfl, h3, h4⟩ := replaceFirst_some hr
        have : k1 = k := by simpa using h4
        subst this
        refine .field ?_
        intro x hx
        simpa using h3 x hx

/-- What is recorded of a line put. -/
def recordOf (o n : Nat) (sec : Section) (new old : Content) : Option Change :=
  match sec, new, old with
  | .info fs _, .field k v, .field _ v0 =>
    if fs.any (fun f => f.1 = k) then (if v0 = [] then none else some (.modified o old new n)) else some (.added o (.field k v) n)
  | _, _, _ => some (.modified o old new n)

theorem put_putLine {o n : Nat} {sec : Section} {new old : Content} {sec' : Section} (h : Put o sec new old sec') :
    putLine o n sec new = .ok (old, sec', recordOf o n sec new old) := by
  cases h with
  | style h1 h2 =>
    unfold putLine
    simp only
    rw [replaceFirst_mid (not_holds.2 h1) (holds_iff.2 h2)]
    rfl
  | event h1 h2 =>
    unfold putLine
    simp only
    rw [replaceFirst_mid (not_holds.2 h1) (holds_iff.2 h2)]
    rfl
  | field h1 =>
    unfold putLine recordOf
    simp only
    rw [replaceFirst_mid (fun y hy => by simpa using h1 y hy) (by simp)]
    simp
  | @newField a k v sp h1 =>
    unfold putLine recordOf
    simp only
    rw [replaceFirst_none.2 (fun y hy => by simpa using h1 y hy)]
    have : a.any (fun f => decide (f.1 = k)) = false := by
      rw [List.any_eq_false]
      intro x hx
      simpa using h1 x hx
    simp [this]

/-- The record made. -/
def recorded (s : Scr) (c : Option Change) : List Change := if s.enabled then s.changes ++ c.toList else s.changes

theorem record_opt (s : Scr) (c : Option Change) : s.recordOpt c = ⟨s.script, recorded s c, s.enabled⟩ := by
  obtain ⟨a, b, e⟩ := s
  unfold recorded Scr.recordOpt Scr.record
  cases c <;> cases e <;> simp

/-- An update that works. -/
theorem updateLine_ok {s s' : Scr} {o n : Nat} {line : Str} {old : Content} (h : updateLine s o line n = (s', .ok old)) :
    ∃ pre sec sec' post new, s.script.sections = pre ++ sec :: post ∧ (∀ x ∈ pre, ¬ Spanned o x) ∧ Spanned o sec ∧ Reads s.script n line new ∧
      Put o sec new old sec' ∧
      s' = ⟨withSecs s.script (pre ++ sec' :: post), recorded s (recordOf o n sec new old), s.enabled⟩ := by
  unfold updateLine at h
  cases hf : findSection o s.script.sections with
  | none => rw [hf] at h; simp at h
  | some r =>
    obtain ⟨pre, sec, post⟩ := r
    rw [hf] at h
    simp only at h
    obtain ⟨f1, f2, f3⟩ := findSection_some hf
    cases hp : parseAuto s.script line n with
    | error e => rw [hp] at h; simp at h
    | ok new =>
      rw [hp] at h
      simp only at h
      cases hl : putLine o n sec new with
      | error e => rw [hl] at h; simp at h
      | ok r =>
        obtain ⟨old', sec', c⟩ := r
        rw [hl] at h
        have hput := putLine_put hl
        rw [put_putLine hput] at hl
        simp only [Except.ok.injEq, Prod.mk.injEq, true_and] at hl
        simp only [Prod.mk.injEq, Except.ok.injEq] at h
        obtain ⟨h1, h2⟩ := h
        subst h2
        refine ⟨pre, sec, sec', post, new, f1, f2, f3, parseAuto_iff.1 hp, hput, ?_⟩
        rw [← h1, record_opt, ← hl]
        rfl

theorem updateLine_step {s : Scr} {o n : Nat} {line : Str} {old new : Content} {pre post : List Section} {sec sec' : Section}
    (h1 : s.script.sections = pre ++ sec :: post) (h2 : ∀ x ∈ pre, ¬ Spanned o x) (h3 : Spanned o sec) (h4 : Reads s.script n line new)
    (h5 : Put o sec new old sec') : updateLine s o line n =
      (⟨withSecs s.script (pre ++ sec' :: post), recorded s (recordOf o n sec new old), s.enabled⟩, .ok old) := by
  unfold updateLine
  rw [h1, findSection_mid h2 h3]
  simp only
  rw [parseAuto_iff.2 h4]
  simp only
  rw [put_putLine h5]
  simp only
  rw [record_opt]
  rfl

theorem updateLine_err {s s' : Scr} {o n : Nat} {line : Str} {e : Err} (h : updateLine s o line n = (s', .error e)) : s' = s := by
  unfold updateLine at h
  cases hf : findSection o s.script.sections with
  | none => rw [hf] at h; simp only [Prod.mk.injEq] at h; exact h.1.symm
  | some r =>
    obtain ⟨pre, sec, post⟩ := r
    rw [hf] at h
    simp only at h
    cases hp : parseAuto s.script line n with
    | error e => rw [hp] at h; simp only [Prod.mk.injEq] at h; exact h.1.symm
    | ok new =>
      rw [hp] at h
      simp only at h
      cases hl : putLine o n sec new with
      | error e => rw [hl] at h; simp only [Prod.mk.injEq] at h; exact h.1.symm
      | ok r => rw [hl] at h; simp at h

theorem ok_step {s s' : Scr} {op : Op} {old : Content} (h : updateLine s op.offset op.line op.number = (s', .ok old)) : Step s.script op old s'.script := by
  obtain ⟨pre, sec, sec', post, new, h1, h2, h3, h4, h5, h6⟩ := updateLine_ok h
  exact ⟨new, _, h4, ⟨pre, sec, sec', post, h1, h2, h3, h5, rfl⟩, by rw [h6]⟩

theorem step_ok {s : Scr} {op : Op} {old : Content} {t : Script} (h : Step s.script op old t) :
    ∃ s', updateLine s op.offset op.line op.number = (s', .ok old) ∧ s'.script = t := by
  obtain ⟨new, l, h1, ⟨pre, sec, sec', post, h2, h3, h4, h5, rfl⟩, rfl⟩ := h
  exact ⟨_, updateLine_step h2 h3 h4 h1 h5, rfl⟩

theorem err_no_step {s s' : Scr} {op : Op} {e : Err} (h : updateLine s op.offset op.line op.number = (s', .error e)) (old : Content) (t : Script) :
    ¬ Step s.script op old t := by
  intro hs
  obtain ⟨s2, h2, _⟩ := step_ok hs
  rw [h] at h2
  simp at h2

end Verif.Update
