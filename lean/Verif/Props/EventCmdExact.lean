import Verif.Props.EventCmd
/-!
# C36, C37 — one event changed, whatever characters the document has
-/
namespace Verif.Props.EventCmdExact
open Verif Verif.Doc Verif.Pos Verif.EventCmd
open Verif.Spec.EventCmd

/-- The byte `n` of the text is not in the middle of a character: it is past the end, or some characters end there. -/
def Whole (s : List Char) (n : Nat) : Prop := byteLen s ≤ n ∨ ∃ p q, s = p ++ q ∧ byteLen p = n

theorem ends_cut {ag edit} {d : Doc} {done s : Str} {n idx : Nat} (hd : d.text = done ++ s) (h : ¬ Whole s n) :
    Ends ag edit d (byteLen done + n) idx (.panic, d) := by
  refine ⟨1, ?_⟩
  have h1 : n < byteLen s := Nat.lt_of_not_le fun h' => h (.inl h')
  rw [editLoop, if_pos (by rw [hd, byteLen_append]; omega)]
  cases e : dropBytes d.text (byteLen done + n) with
  | none => rfl
  | some q =>
    exfalso
    obtain ⟨p, e1, e2⟩ := dropBytes_iff.1 e
    rw [hd] at e1
    rcases List.append_eq_append_iff.1 e1 with ⟨z, z1, z2⟩ | ⟨z, z1, z2⟩
    · refine h (.inr ⟨z, q, z2, ?_⟩)
      rw [z1, byteLen_append] at e2
      omega
    · rw [z1, byteLen_append] at e2
      have : byteLen z = 0 := by omega
      refine h (.inr ⟨[], s, rfl, ?_⟩)
      rw [byteLen_nil]; omega

/-- Exactly one event is rewritten; the command ends well exactly if it finds its place afterwards. -/
theorem one {ag edit} {d : Doc} {done row t new : Str} {rows : List Str} {k : Nat}
    (hd : d.text = done ++ table rows ++ row ++ t) (hrows : ∀ r ∈ rows, Row r) (hc : Count rows k)
    (hrow : Row row) (hev : IsEvent row) (ht : t = [] ∨ t.head? = some '\n')
    (he : edit k row = .ok (some new)) (hq : ∀ j, j ≠ k → ∀ l, edit j l = .ok none) :
    ∃ o d', Ends ag edit d (byteLen done) 0 (o, d') ∧ d'.text = done ++ table rows ++ new ++ t ∧
      ((Whole (new ++ t) (byteLen row + 1) ∧ o = .ok ()) ∨ (¬ Whole (new ++ t) (byteLen row + 1) ∧ o = .panic)) := by
  by_cases hb : Whole (new ++ t) (byteLen row + 1)
  · obtain ⟨d', h1, h2⟩ := ends_one hd hrows hc hrow hev ht he hq (by
      rcases hb with h | h
      · left; rwa [byteLen_append] at h
      · exact .inr h)
    exact ⟨_, d', h1, h2, .inl ⟨hb, rfl⟩⟩
  · obtain ⟨d', h1, h2⟩ := ends_change (edit := edit) (idx := k) hd hrow ht hev he
    refine ⟨.panic, d', ?_, h1, .inr ⟨hb, rfl⟩⟩
    refine ends_skip hc (t := row ++ t) (by rw [hd]; simp) hrows (fun j _ h l => hq j (by omega) l) ?_
    rw [Nat.zero_add]
    refine h2 _ ?_
    rw [Nat.add_assoc]
    exact ends_cut (s := new ++ t) (by rw [h1]; simp) hb

/-- What a command on one event is to do: the document has the new line in place of the old one, and the command ends well
if the byte after the old line's end is not in the middle of a character now; otherwise it panics (with the line already
replaced). -/
def Rewrites (cmd : Nat → Doc → Option (Outcome Unit × Doc)) (d : Doc) (before old new after : Str) : Prop :=
  ∃ o d', Does cmd d (o, d') ∧ d'.text = before ++ new ++ after ∧
    ((Whole (new ++ after) (byteLen old + 1) ∧ o = .ok ()) ∨ (¬ Whole (new ++ after) (byteLen old + 1) ∧ o = .panic))

theorem rewrites {edit} {d : Doc} {h row t new : Str} {rows : List Str} {k : Nat} (hh : Head h)
    (hd : d.text = h ++ table rows ++ row ++ t) (hrows : ∀ r ∈ rows, Row r) (hc : Count rows k)
    (hrow : Row row) (hev : IsEvent row) (ht : t = [] ∨ t.head? = some '\n')
    (he : edit k row = .ok (some new)) (hq : ∀ j, j ≠ k → ∀ l, edit j l = .ok none) :
    Rewrites (editEvents edit) d (h ++ table rows) row new t := by
  obtain ⟨o, d', h1, h2, h3⟩ := one (ag := false) hd hrows hc hrow hev ht he hq
  exact ⟨o, d', does_of_ends (body := table rows ++ (row ++ t)) hh (by rw [hd]; simp only [List.append_assoc]) h1, h2, h3⟩

/-- **C36 (switching one event, any characters).**  Switching one event between dialogue and comment changes exactly that
word, in every document; it ends well exactly if the loop's next place is not in the middle of a character. -/
theorem C36_toggle_exact (d : Doc) (h r r' t : Str) (rows : List Str) (k : Nat) (hh : Head h)
    (hrows : ∀ r ∈ rows, Row r) (hc : Count rows k) (ht : Toggled r r') (hr : '\n' ∉ r)
    (htail : t = [] ∨ t.head? = some '\n') (hd : d.text = h ++ table rows ++ r ++ t) :
    Rewrites (toggle [k]) d (h ++ table rows) r r' t :=
  rewrites (edit := toggleEdit [k]) hh hd hrows hc (toggled_row ht hr) (toggled_event ht) htail
    (by unfold toggleEdit; rw [selected_one, toggleLine_toggled ht]; simp)
    (by intro j hj l; unfold toggleEdit; rw [selected_one]; simp [hj])

/-- **C36 (moving one event, any characters).**  Moving the times of one event changes exactly its start and its end, in every
document; it ends well exactly if the loop's next place is not in the middle of a character. -/
theorem C36_timing_exact (d : Doc) (h t : Str) (rows : List Str) (k : Nat) (f f' : Fields) (so eo : Int)
    (hh : Head h) (hrows : ∀ r ∈ rows, Row r) (hc : Count rows k) (hf : f.Safe) (hnl : '\n' ∉ f.line)
    (htail : t = [] ∨ t.head? = some '\n') (hr : Retimed f so eo f') (hd : d.text = h ++ table rows ++ f.line ++ t) :
    Rewrites (timing [k] so eo) d (h ++ table rows) f.line f'.line t :=
  rewrites (edit := timingEdit [k] so eo) hh hd hrows hc (line_row hnl) (line_isEvent f) htail
    (timing_line hf hr (is := [k]) (k := k) (by rw [selected_one]; simp))
    (by intro j hj l; unfold timingEdit; rw [selected_one]; simp [hj])

/-- The effect an event is to have. -/
inductive Changes : EffectOp → Str → Str → Str → Prop
  | set (e old) : Changes .set e old e
  | clear (e old) : Changes .clear e old []
  | appendFirst (e) : Changes .append e [] e
  | append (e old) (h : old ≠ []) : Changes .append e old (old ++ " ".toList ++ e)
  | prependFirst (e) : Changes .prepend e [] e
  | prepend (e old) (h : old ≠ []) : Changes .prepend e old (e ++ " ".toList ++ old)

theorem changes_eq {op : EffectOp} {e old new : Str} (h : Changes op e old new) : newEffect op e old = new := by
  cases h with
  | set => rfl
  | clear => rfl
  | appendFirst => rfl
  | append e old h => simp [newEffect, h]
  | prependFirst => rfl
  | prepend e old h => simp [newEffect, h]

/-- **C37 (the effect of one event, any characters).**  Setting, clearing, appending to or prepending to the effect of one
event changes exactly that field, in every document; it ends well exactly if the loop's next place is not in the middle of a
character. -/
theorem C37_effect_exact (d : Doc) (h t e new : Str) (rows : List Str) (k : Nat) (f : Fields) (op : EffectOp)
    (hh : Head h) (hrows : ∀ r ∈ rows, Row r) (hc : Count rows k) (hf : f.Safe) (hnl : '\n' ∉ f.line)
    (htail : t = [] ∨ t.head? = some '\n') (hop : Changes op e f.effect new) (hd : d.text = h ++ table rows ++ f.line ++ t) :
    Rewrites (effect [k] op e) d (h ++ table rows) f.line { f with effect := new }.line t := by
  refine rewrites (edit := effectEdit [k] op e) hh hd hrows hc (line_row hnl) (line_isEvent f) htail ?_
    (by intro j hj l; unfold effectEdit; rw [selected_one]; simp [hj])
  rw [← changes_eq hop]
  exact effect_line hf (is := [k]) (k := k) (by rw [selected_one]; simp) op e

/-- **C37 (the effects of a selection).**  The effect of every selected event changes as asked and everything else stays,
provided the new lines are as long in bytes as the old ones.

Missing: lines of other lengths, after which events are missed (`C36_toggle_all_violated`). -/
theorem C37_effects_partial (d : Doc) (h t e : Str) (rows rows' : List Str) (is : List Nat) (op : EffectOp)
    (hh : Head h) (hrows : ∀ r ∈ rows, Row r) (ht : End t)
    (he : Each (fun j r r' =>
      (Selected is j ∧ ∃ (f : Fields) (new : Str), f.Safe ∧ Changes op e f.effect new ∧ r = f.line ∧ r' = { f with effect := new }.line ∧
        byteLen r' = byteLen r) ∨
      (¬ Selected is j ∧ r' = r)) 0 rows rows')
    (hd : d.text = h ++ table rows ++ t) :
    ∃ d', Does (effect is op e) d (.ok (), d') ∧ d'.text = h ++ table rows' ++ t := by
  have hsel : ∀ j, selected is j = true ↔ Selected is j := by
    intro j; unfold selected Selected; simp
  obtain ⟨d', h1, h2⟩ := ends_each (ag := false) (edit := effectEdit is op e) he (by
    rintro j l l' (⟨hj, f, new, hf, hop, rfl, rfl, hb⟩ | ⟨hj, rfl⟩)
    · refine ⟨hb, Or.inl ?_⟩
      rw [← changes_eq hop]
      exact effect_line hf ((hsel j).2 hj) op e
    · refine ⟨rfl, Or.inr ⟨?_, rfl⟩⟩
      unfold effectEdit
      rw [if_neg (by rw [hsel]; exact hj)]) hd hrows ht (fun h => by cases h)
  exact ⟨d', does_of_ends (body := table rows ++ t) hh (by rw [hd]; simp only [List.append_assoc]) h1, h2⟩

/-! ## Examples -/

/-- An event with a text outside ASCII, and a line after it that is outside ASCII too. -/
def exF (e : String) : Fields := { exFields "0:00:01.00" "0:00:02.00" "Žluťoučký" with effect := e.toList }

def exDoc : Doc := ⟨exHead ++ (exF "fx").line ++ "\n; česky\n".toList, Stack.new ⟨50, 0, 100⟩⟩

theorem exSafe : (exF "fx").Safe := by
  have tr : ∀ s : Str, (∀ c, s.head? = some c → isWs c = false) → (∀ c, s.getLast? = some c → isWs c = false) → Trimmed s := fun s h1 h2 =>
    ⟨fun c hc => not_white_of (h1 c hc), fun c hc => not_white_of (h2 c hc)⟩
  refine ⟨?_, by decide, tr _ (by decide) (by decide), ?_, by decide⟩
  · intro x hx
    simp only [exF, exFields, List.mem_cons, List.not_mem_nil, or_false] at hx
    rcases hx with rfl | rfl | rfl | rfl | rfl | rfl | rfl | rfl | rfl <;> exact ⟨by decide, tr _ (by decide) (by decide)⟩
  · intro a b e
    have : ',' ∈ "Žluťoučký".toList := by
      rw [show "Žluťoučký".toList = a ++ ',' :: b from e]; simp
    exact absurd this (by decide)

theorem exRewrites (e : String) : Rewrites (effect [0] .set e.toList) exDoc exHead (exF "fx").line (exF e).line "\n; česky\n".toList := by
  have := C37_effect_exact exDoc exHead "\n; česky\n".toList e.toList e.toList [] 0 (exF "fx") .set
    exHead_head (by simp) .nil exSafe (by decide) (.inr rfl) (.set _ _) rfl
  rw [show exHead ++ table [] = exHead from List.append_nil _] at this
  exact this

/-- With an effect of the same length the command ends well. -/
example : ∃ d', Does (effect [0] .set "ab".toList) exDoc (.ok (), d') ∧ d'.text = exHead ++ (exF "ab").line ++ "\n; česky\n".toList := by
  obtain ⟨o, d', h1, h2, ⟨-, rfl⟩ | ⟨h3, -⟩⟩ := exRewrites "ab"
  · exact ⟨d', h1, h2⟩
  · exact absurd (.inr ⟨(exF "ab").line ++ ['\n'], "; česky\n".toList, by decide, by decide⟩) h3

/-- Whether a place is in the middle of a character. -/
def cuts (s : Str) (n : Nat) : Bool := decide (n < byteLen s) && (dropBytes s n).isNone

theorem not_whole {s : Str} {n : Nat} (h : cuts s n = true) : ¬ Whole s n := by
  simp only [cuts, Bool.and_eq_true, decide_eq_true_eq, Option.isNone_iff_eq_none] at h
  rintro (h' | ⟨p, q, e, e'⟩)
  · omega
  · rw [dropBytes_iff.2 ⟨p, e, e'⟩] at h
    exact absurd h.2 (by simp)

/-- With an effect two bytes longer the next place is in the middle of the text's last character: the command panics. -/
example : ∃ d', Does (effect [0] .set "fxyz".toList) exDoc (.panic, d') := by
  obtain ⟨o, d', h1, h2, ⟨h3, -⟩ | ⟨-, rfl⟩⟩ := exRewrites "fxyz"
  · exact absurd h3 (not_whole (by decide))
  · exact ⟨d', h1⟩

end Verif.Props.EventCmdExact
