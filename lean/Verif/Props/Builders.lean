import Verif.Lemmas.Builders
/-! Property C97: the builders of event and style lines. -/
namespace Verif.Props
open Verif
open Verif.Ast
open Verif.Builders
open Verif.Parser (Version)
open Verif.Spec.Lines
open Verif.Spec.EventCmd (Plain Trimmed White)
open Verif.Spec.Builders (PlainB eventNames given)
open Verif.Spec.InfoCmd (Stripped)

/-- **C97 (events, any field list), partial.** A line built for a field list with the text last, or without the text and of at most
ten names, reads back as the event meant: the kind, every listed field as given or with its default, the text without outer blanks.

Missing: commas and outer blanks in the fields (see `C97_comma_violated`), line breaks (see `C97_break_violated`). -/
theorem C97_event_partial {b : EventB} {fmt : List Str} (hb : PlainB b) (hk : ∀ f ∈ fmt, f ∈ eventNames) (hne : fmt ≠ [])
    (ht : (∃ pre, fmt = pre ++ ["Text".toList] ∧ "Text".toList ∉ pre) ∨ ("Text".toList ∉ fmt ∧ fmt.length ≤ 10)) :
    ∃ line e, b.buildFormat fmt = some line ∧ parseEvent line fmt = some e ∧ KeptEvent fmt (Spec.Builders.event b) e := by
  have hl : b.buildFormat fmt = some ((Spec.Builders.event b).toAssWith fmt) := by
    unfold EventB.buildFormat Event.toAssWith
    rw [if_neg hne, valuesOf_eq (fun f hf => event_value b (hk f hf))]
    rfl
  have hs : EventSpelled fmt := by
    intro f hf n hn hsame
    have all : ∀ f ∈ eventNames, ∀ n ∈ eventFields.map Prod.fst ++ eventOptions.map Prod.fst ++ ["Text".toList],
        f.map Char.toLower = n.map Char.toLower → f = n := by decide +kernel
    exact all f (hk f hf) n hn hsame
  rcases ht with ⟨pre, rfl, hp⟩ | ⟨hn, h10⟩
  · obtain ⟨e, h1, h2⟩ := C10_text_last_partial hs hp (event_plain hb)
    exact ⟨_, e, hl, h1, h2⟩
  · obtain ⟨e, h1, h2⟩ := C10_no_text_partial hs hn hne h10 (event_plain hb)
    exact ⟨_, e, hl, h1, h2⟩

example : ∃ b : EventB, PlainB b ∧ b.buildFormat ["Style".toList, "MarginT".toList, "Text".toList] = some "Comment: Main,25,a, b".toList :=
  ⟨{ kind := some .comment, style := some "Main".toList, marginT := some 25, text := some "a, b".toList },
    ⟨nofun, nofun, (by rintro s ⟨⟩; exact plain_of (by decide)), nofun, nofun⟩, by decide⟩

/-- **C97 (refused field lists).** The empty field list and a list with an unknown name are refused. -/
theorem C97_refused (b : EventB) (c : StyleB) (fmt : List Str) :
    b.buildFormat [] = none ∧ c.buildFormat [] = none ∧ ((∃ f ∈ fmt, f ∉ eventNames) → b.buildFormat fmt = none) ∧
    ((∃ f ∈ fmt, f ∉ "TertiaryColour".toList :: "AlphaLevel".toList :: Spec.Builders.styleNames) → c.buildFormat fmt = none) := by
  refine ⟨rfl, rfl, ?_, ?_⟩
  · rintro ⟨f, hf, hn⟩
    have : b.value f = none := by
      simp only [eventNames, eventFields, eventOptions, List.map_cons, List.map_nil, List.cons_append, List.nil_append, List.mem_cons,
        List.not_mem_nil, or_false, not_or] at hn
      unfold EventB.value
      simp only [hn, if_false, or_false]
    unfold EventB.buildFormat
    rw [valuesOf_none this hf]
    split <;> rfl
  · rintro ⟨f, hf, hn⟩
    have : c.value f = none := by
      simp only [Spec.Builders.styleNames, styleFields, styleOptions, List.map_cons, List.map_nil, List.cons_append, List.nil_append,
        List.mem_cons, List.not_mem_nil, or_false, not_or] at hn
      unfold StyleB.value
      simp only [hn, if_false, or_false]
    unfold StyleB.buildFormat
    rw [valuesOf_none this hf]
    split <;> rfl

example : ({ } : EventB).buildFormat ["Text".toList, "Colour".toList] = none := by decide

/-- **C97 (events), partial.** The line built without a field list reads back as exactly the event meant, but for the vertical margins
of the newest version (see `C97_margins_violated`).  Missing: as for `C97_event_partial`. -/
theorem C97_event_default_partial {b : EventB} (hb : PlainB b) (ht : ∀ s, b.text = some s → Trimmed s) :
    parseEvent b.build [] = some { Spec.Builders.event b with marginT := none, marginB := none } ∧
    b.buildVersion .ass4plus = b.build ∧ b.buildVersion .ass4 = b.build := by
  refine ⟨?_, rfl, rfl⟩
  have hp := event_plain hb
  have e : b.build = ({ Spec.Builders.event b with marginT := none, marginB := none } : Event).toAss := by
    unfold EventB.build EventB.buildVersion Event.toAss
    simp only [show (['0'] : Str) = "0".toList from rfl, num_eq]
    rfl
  rw [e]
  refine (C10_default ⟨?_, ?_⟩ ?_ rfl rfl).1
  · have h1 := hp.1
    simp only [eventFields, List.forall_mem_cons] at h1 ⊢
    obtain ⟨a1, a2, a3, a4, a5, a6, a7, a8, a9, -⟩ := h1
    exact ⟨a1, a2, a3, a4, a5, a6, a7, a8, a9, nofun⟩
  · simp only [eventOptions, List.forall_mem_cons]
    exact ⟨nofun, nofun, nofun⟩
  · show Trimmed (b.text.getD [])
    cases h : b.text with
    | none => exact ⟨nofun, nofun⟩
    | some s => exact ht s h

example : ({ start := some "0:00:01.00".toList, text := some "Hi, you".toList } : EventB).build =
    "Dialogue: 0,0:00:01.00,0:00:05.00,Default,,0,0,0,,Hi, you".toList := by decide

/-- **C97 (old events).** In the old format the line has `Marked=0` in place of the layer and otherwise the same fields. -/
theorem C97_ssa (b : EventB) (rest : Str) (h : b.build = (b.kind.getD .dialogue).str ++ ": ".toList ++ num b.layer ['0'] ++ ',' :: rest) :
    b.buildVersion .ssa4 = (b.kind.getD .dialogue).str ++ ": Marked=0,".toList ++ rest := by
  unfold EventB.build EventB.buildVersion at h
  simp only [List.append_assoc] at h
  have h := List.append_cancel_left (List.append_cancel_left h)
  rw [show joinStr [','] (num b.layer ['0'] :: b.start.getD "0:00:00.00".toList :: _) =
    num b.layer ['0'] ++ [','] ++ joinStr [','] (b.start.getD "0:00:00.00".toList :: _) from rfl, List.append_assoc] at h
  have h := List.append_cancel_left h
  rw [List.cons_append, List.nil_append] at h
  unfold EventB.buildVersion
  rw [(List.cons.inj h).2]
  simp

example : ({ layer := some 7 } : EventB).build = "Dialogue: ".toList ++ num (some 7) ['0'] ++ ',' :: "0:00:00.00,0:00:05.00,Default,,0,0,0,,".toList ∧
    ({ layer := some 7 } : EventB).buildVersion .ssa4 = "Dialogue: Marked=0,0:00:00.00,0:00:05.00,Default,,0,0,0,,".toList := by decide

/-- **C97, disagreement.** The margins at the top and the bottom are not written, not even for the version that has them. -/
theorem C97_margins_violated (b : EventB) (v : Version) (t u : Option Nat) :
    { b with marginT := t, marginB := u }.buildVersion v = b.buildVersion v := by
  cases v <;> rfl

/-- **C97, disagreement.** A comma in a field moves all fields behind it; the builder does not refuse it. -/
theorem C97_comma_violated : ∃ e, parseEvent ({ style := some "A,B".toList, text := some "x".toList } : EventB).build [] = some e ∧
    e.style = "A".toList ∧ e.name = "B".toList ∧ e.text = ",x".toList := ⟨_, rfl, by decide, by decide, by decide⟩

/-- **C97, disagreement.** A line break in the text ends the line: the rest is not part of the event. -/
theorem C97_break_violated : ({ text := some "a\nb".toList } : EventB).build = "Dialogue: 0,0:00:00.00,0:00:05.00,Default,,0,0,0,,a\nb".toList := by
  decide

/-- **C97 (styles), partial.** A style line built for a field list whose names the reader knows reads back as the style meant.

Missing: commas and outer blanks; a name that begins with `*`; the fields of the old format (see `C97_old_style_violated`). -/
theorem C97_style_partial {b : StyleB} {fmt : List Str} (hb : ∀ o ∈ given b, ∀ s, o = some s → Plain s ∧ s.head? ≠ some '*')
    (hk : ∀ f ∈ fmt, f ∈ Spec.Builders.styleNames) (hne : fmt ≠ []) :
    ∃ line s, b.buildFormat fmt = some ("Style:".toList ++ line) ∧ parseStyle line fmt = some s ∧ KeptStyle fmt (Spec.Builders.style b) s := by
  have hl : b.buildFormat fmt = some ((Spec.Builders.style b).toAssWith fmt) := by
    unfold StyleB.buildFormat Style.toAssWith
    rw [if_neg hne, valuesOf_eq (fun f hf => style_value b (List.mem_cons_of_mem _ (hk f hf)))]
  have hs : StyleSpelled fmt := by
    intro f hf n hn hsame
    have all : ∀ f ∈ Spec.Builders.styleNames, ∀ n ∈ styleFields.map Prod.fst ++ styleOptions.map Prod.fst,
        f.map Char.toLower = n.map Char.toLower → f = n ∨ f = "Strikeout".toList := by decide +kernel
    exact all f (hk f hf) n hn hsame
  have hstar : ∀ n, ((Spec.Builders.style b).value n).head? ≠ some '*' := by
    have hg : ∀ (o : Option Str) (d : Str), (∀ s, o = some s → s.head? ≠ some '*') → d.head? ≠ some '*' → (o.getD d).head? ≠ some '*' := by
      intro o d h hd
      cases o with
      | none => exact hd
      | some s => exact h s rfl
    have hd : ∀ n : Nat, (Nat.toDigits 10 n).head? ≠ some '*' := by
      intro n h
      exact absurd (showNat_digits n '*' (List.mem_of_mem_head? h)) (by decide)
    have hx : ∀ (x : Option Nat) (d : String), d.toList.head? ≠ some '*' → (Spec.Builders.dec x d).head? ≠ some '*' := by
      intro x d h
      cases x with
      | none => exact h
      | some n => exact hd n
    have hy : ∀ x : Option Bool, (Spec.Builders.yes x).head? ≠ some '*' := by
      intro x
      cases x with
      | none => decide
      | some b => cases b <;> decide
    have hb2 : ∀ o ∈ given b, ∀ s, o = some s → s.head? ≠ some '*' := fun o ho s hs => (hb o ho s hs).2
    simp only [given, List.forall_mem_cons] at hb2
    obtain ⟨h1, h2, h3, h4, h5, h6, h7, h8, h9, h10, h11, h12, h13, -⟩ := hb2
    intro n
    refine Parser.svalue_all (P := fun x => x.head? ≠ some '*') ?_ ?_ (by decide) (by decide) n
    · simp only [styleFields, List.forall_mem_cons]
      refine ⟨hg _ _ h1 (by decide), hg _ _ h2 (by decide), hx _ _ (by decide), hg _ _ h3 (by decide), hg _ _ h4 (by decide),
        hg _ _ h5 (by decide), hg _ _ h6 (by decide), hy _, hy _, hy _, hy _, hg _ _ h7 (by decide), hg _ _ h8 (by decide),
        hg _ _ h9 (by decide), hg _ _ h10 (by decide), hx _ _ (by decide), hg _ _ h11 (by decide), hg _ _ h12 (by decide),
        hx _ _ (by decide), hx _ _ (by decide), hx _ _ (by decide), hx _ _ (by decide), hx _ _ (by decide), nofun⟩
    · simp only [styleOptions, List.forall_mem_cons]
      refine ⟨?_, ?_, h13, nofun⟩
      · intro v hv
        obtain ⟨n, _, rfl⟩ := Option.map_eq_some_iff.1 hv
        exact hd n
      · intro v hv
        obtain ⟨n, _, rfl⟩ := Option.map_eq_some_iff.1 hv
        exact hd n
  obtain ⟨line, s, h1, h2, h3⟩ := C11_round_trip_partial hne hs (style_plain (fun o ho s hs => (hb o ho s hs).1)) (fun n _ => hstar n)
  exact ⟨line, s, by rw [hl, h1], h2, h3⟩

/-- **C97 (styles by version), partial.** The two newer versions have field lists the reader knows; the oldest one is written by
`C97_old_style_violated`'s list. -/
theorem C97_versions_partial (b : StyleB) : b.buildVersion .ass4 = some b.build ∧
    (∀ f ∈ Builders.styleNames .ass4, f ∈ Spec.Builders.styleNames) ∧ (∀ f ∈ Builders.styleNames .ass4plus, f ∈ Spec.Builders.styleNames) ∧
    ∃ line, b.buildVersion .ass4plus = some line :=
  ⟨rfl, by decide +kernel, by decide +kernel, _, rfl⟩

example : ({ name := some "Main".toList, bold := some true, fontsize := some 32 } : StyleB).buildFormat
    ["Name".toList, "Bold".toList, "Fontsize".toList] = some "Style: Main,-1,32".toList := by decide

/-- **C97, disagreement.** Of a style built for the oldest version the outline colour and the transparency are not read back: the
names used for them are not known to the reader. -/
theorem C97_old_style_violated : ∃ line s,
    ({ outlineColour := some "&H123456".toList } : StyleB).buildVersion .ssa4 = some ("Style:".toList ++ line) ∧
    parseStyle line (Builders.styleNames .ssa4) = some s ∧ s.outlineColour = [] :=
  ⟨" NewStyle,Arial,20,&Hffffff,&Hff0000,&H123456,&H0,0,0,1,2,0,2,10,10,10,0,1".toList, _, by decide +kernel, rfl, by decide +kernel⟩

end Verif.Props
