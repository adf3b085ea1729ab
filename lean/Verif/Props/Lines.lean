import Verif.Lemmas.Ast
/-!
# C10, C11: written event and style lines read back

`Event::to_ass_string(_with_format)` / `EventsParser::parse_event_line`, `Style::to_ass_string(_with_format)` /
`StylesParser::parse_style_line`.
-/
namespace Verif.Ast
open Verif
open Verif.Spec.EventCmd (Plain White Trimmed csv)
open Verif.Spec.InfoCmd (Stripped)
open Verif.Spec.Lines
open Verif.Spec.Lines (Has)

/-! ## Events -/

private theorem plain_zero : Plain ['0'] := by
  refine ⟨by decide, ?_, ?_⟩ <;> · intro c h; simp at h; subst h; unfold White; decide

private theorem plain_nil : Plain [] := ⟨by simp, by simp, by simp⟩

private theorem plain_option {o : Option Str} (h : ∀ v, o = some v → Plain v) : Plain (o.getD ['0']) := by
  cases o with
  | none => exact plain_zero
  | some v => exact h v rfl

private theorem plain_ite {c : Prop} [Decidable c] {a b : Str} (ha : Plain a) (hb : Plain b) :
    Plain (if c then a else b) := by
  by_cases h : c
  · rw [if_pos h]; exact ha
  · rw [if_neg h]; exact hb

private theorem value_plain {e : Event} (h : PlainEvent e) {f : Str} (hf : f ≠ "Text".toList) : Plain (e.value f) := by
  obtain ⟨h1, h2⟩ := h
  simp only [eventFields, eventOptions, List.forall_mem_cons] at h1 h2
  obtain ⟨a1, a2, a3, a4, a5, a6, a7, a8, a9, -⟩ := h1
  obtain ⟨b1, b2, -⟩ := h2
  unfold Event.value
  exact plain_ite a1 (plain_ite a2 (plain_ite a3 (plain_ite a4 (plain_ite a5 (plain_ite a6 (plain_ite a7 (plain_ite a8
    (plain_ite (plain_option b1) (plain_ite (plain_option b2) (plain_ite a9 (by rw [if_neg hf]; exact plain_nil)))))))))))

private theorem names_ne {n : Str} (h : n ∈ eventFields.map Prod.fst ++ eventOptions.map Prod.fst) :
    ¬ SameName "Text".toList n := by
  revert n
  unfold SameName
  decide

private theorem value_field (e : Event) : (∀ f ∈ eventFields, e.value f.1 = f.2 e) ∧
    (∀ f ∈ eventOptions, e.value f.1 = (f.2 e).getD ['0']) := by
  simp only [eventFields, eventOptions, List.forall_mem_cons]
  refine ⟨⟨rfl, rfl, rfl, rfl, rfl, rfl, rfl, rfl, rfl, by simp⟩, rfl, rfl, by simp⟩

/-- The fields of an event by its parts. -/
private theorem kept {e : Event} {fmt parts : List Str} (hs : EventSpelled fmt) (hp : PlainEvent e)
    (hl : fmt.length ≤ parts.length)
    (h : ∀ p ∈ fmt.zip parts, p.1 ∈ fmt ∧ (p.1 ≠ "Text".toList → p.2 = e.value p.1) ∧
      (p.1 = "Text".toList → trim p.2 = trim e.text)) :
    KeptEvent fmt e (eventOf e.kind fmt parts) := by
  have key : ∀ n ∈ eventFields.map Prod.fst ++ eventOptions.map Prod.fst, ∀ p ∈ fmt.zip parts, SameName p.1 n →
      trim p.2 = e.value n := by
    intro n hn p hp' hsn
    obtain ⟨hm, ht, -⟩ := h p hp'
    have e1 : p.1 = n := hs p.1 hm n (List.mem_append_left _ hn) hsn
    have hnt : p.1 ≠ "Text".toList := by
      intro e2; rw [e2] at hsn; exact names_ne hn hsn
    rw [ht hnt, EventCmd.trimmed_trim (value_plain hp hnt).2, e1]
  have g : ∀ n v, n ∈ eventFields.map Prod.fst ++ eventOptions.map Prod.fst → e.value n = v →
      (Has fmt n → getField fmt parts n = v) ∧ (¬ Has fmt n → getField fmt parts n = []) := by
    intro n v hn hv
    exact ⟨fun hh => getField_has hl (fun p hp hsn => (key n hn p hp hsn).trans hv) hh, getField_lacks⟩
  have o : ∀ n v, n ∈ eventFields.map Prod.fst ++ eventOptions.map Prod.fst → e.value n = v →
      (Has fmt n → optField fmt parts n = some v) ∧ (¬ Has fmt n → optField fmt parts n = none) := by
    intro n v hn hv
    exact ⟨fun hh => optField_has hl (fun p hp hsn => (key n hn p hp hsn).trans hv) hh, optField_lacks⟩
  refine ⟨rfl, ?_, ?_, ?_, getField_lacks⟩
  · simp only [eventFields, List.forall_mem_cons]
    refine ⟨?_, ?_, ?_, ?_, ?_, ?_, ?_, ?_, ?_, by simp⟩
    all_goals exact g _ _ (by decide) rfl
  · simp only [eventOptions, List.forall_mem_cons]
    refine ⟨?_, ?_, by simp⟩
    all_goals exact o _ _ (by decide) rfl
  · intro hh
    show Stripped e.text (getField fmt parts "Text".toList)
    have : getField fmt parts "Text".toList = trim e.text := by
      apply getField_has hl _ hh
      intro p hp' hsn
      obtain ⟨hm, -, ht⟩ := h p hp'
      exact ht (hs p.1 hm "Text".toList (by decide) hsn)
    rw [this]
    exact InfoCmd.stripped_trim e.text

private theorem not_same {fmt : List Str} (hs : EventSpelled fmt) (ht : "Text".toList ∉ fmt) : ¬ Has fmt "Text".toList := by
  rintro ⟨f, hf, hsn⟩
  exact ht (hs f hf "Text".toList (by decide) hsn ▸ hf)

/-- **C10 (formats ending in the text).**  Writing an event by a field list that ends with `Text` and reading the line by
the same list gives the event back: kind, every field listed, and the text whatever characters it has, without its outer
blanks.  Missing from the property: outer blanks of the text, other spellings of the names, a text in the middle. -/
theorem C10_text_last_partial {e : Event} {pre : List Str} (hs : EventSpelled (pre ++ ["Text".toList])) (ht : "Text".toList ∉ pre)
    (hp : PlainEvent e) :
    ∃ e', parseEvent (e.toAssWith (pre ++ ["Text".toList])) (pre ++ ["Text".toList]) = some e' ∧
      KeptEvent (pre ++ ["Text".toList]) e e' := by
  have hpl : ∀ x ∈ pre.map e.value, Plain x := by
    intro x hx
    obtain ⟨f, hf, rfl⟩ := List.mem_map.1 hx
    exact value_plain hp (fun e1 => ht (e1 ▸ hf))
  obtain ⟨t, e1, e2⟩ := trim_csv_last (l := pre.map e.value) (t := e.text) (fun x hx => (hpl x hx).2)
  have hk : KeptEvent (pre ++ ["Text".toList]) e _ :=
    kept (parts := pre.map e.value ++ [t]) hs hp (by simp) (by
      intro p hp'
      rw [List.zip_append (by simp)] at hp'
      rcases List.mem_append.1 hp' with h1 | h1
      · obtain ⟨a, b⟩ := zip_map_mem h1
        exact ⟨List.mem_append_left _ a, fun _ => b, fun e3 => absurd (e3 ▸ a) ht⟩
      · rw [List.zip_cons_cons, List.zip_nil_left, List.mem_singleton] at h1
        subst h1
        exact ⟨by simp, fun h => absurd rfl h, fun _ => e2⟩)
  refine ⟨_, ?_, hk⟩
  have e3 : e.toAssWith (pre ++ ["Text".toList]) = e.kind.str ++ ':' :: (' ' :: csv (pre.map e.value ++ [e.text])) := by
    unfold Event.toAssWith
    rw [StyleCmd.joinStr_csv, List.map_append, List.append_assoc]
    rfl
  have hd : eventData e.kind (csv (pre.map e.value ++ [t])) (pre ++ ["Text".toList]) = .ok (eventOf e.kind (pre ++ ["Text".toList]) (pre.map e.value ++ [t])) := by
    have hf : hasField (pre ++ ["Text".toList]) "Text".toList = true := hasField_iff.2 ⟨_, by simp, rfl⟩
    have hsp : splitn ',' (pre ++ ["Text".toList]).length (csv (pre.map e.value ++ [t])) = pre.map e.value ++ [t] := by
      have := splitn_csv_last (l := pre.map e.value) t (fun x hx => (hpl x hx).1)
      rw [List.length_map] at this
      rw [List.length_append]
      exact this
    exact eventData_of (by simp) (by rw [if_pos hf, hsp]) (by simp)
  unfold parseEvent
  rw [e3, eventKind_write]
  simp only
  rw [e1, hd]

/-- **C10 (formats without the text).**  The same for a field list without a text, of at most ten names.
Missing: longer lists without a text, and names spelled otherwise (`C10_names_violated`). -/
theorem C10_no_text_partial {e : Event} {fmt : List Str} (hs : EventSpelled fmt) (ht : "Text".toList ∉ fmt) (hne : fmt ≠ [])
    (hl : fmt.length ≤ 10) (hp : PlainEvent e) :
    ∃ e', parseEvent (e.toAssWith fmt) fmt = some e' ∧ KeptEvent fmt e e' := by
  have hpl : ∀ x ∈ fmt.map e.value, Plain x := by
    intro x hx
    obtain ⟨f, hf, rfl⟩ := List.mem_map.1 hx
    exact value_plain hp (fun e1 => ht (e1 ▸ hf))
  have hk : KeptEvent fmt e _ :=
    kept (parts := fmt.map e.value) hs hp (by simp) (by
      intro p hp'
      obtain ⟨a, b⟩ := zip_map_mem hp'
      exact ⟨a, fun _ => b, fun e3 => absurd (e3 ▸ a) ht⟩)
  refine ⟨_, ?_, hk⟩
  have e3 : e.toAssWith fmt = e.kind.str ++ ':' :: (' ' :: csv (fmt.map e.value)) := by
    unfold Event.toAssWith
    rw [StyleCmd.joinStr_csv, List.append_assoc]
    rfl
  have hd : eventData e.kind (csv (fmt.map e.value)) fmt = .ok (eventOf e.kind fmt (fmt.map e.value)) := by
    have hf : ¬ hasField fmt "Text".toList = true := fun h => not_same hs ht (hasField_iff.1 h)
    have hsp : splitn ',' 10 (csv (fmt.map e.value)) = fmt.map e.value :=
      splitn_csv (by simpa using hne) (by simpa using hl) (fun x hx => (hpl x hx).1)
    exact eventData_of hne (by rw [if_neg hf, hsp]) (by simp)
  unfold parseEvent
  rw [e3, eventKind_write]
  simp only
  rw [trim_csv (fun x hx => (hpl x hx).2), hd]

private theorem spelled_default : EventSpelled eventFormat := by unfold EventSpelled SameName; decide

private theorem has_default : (∀ f ∈ eventFields, Has eventFormat f.1) ∧ (∀ f ∈ eventOptions, ¬ Has eventFormat f.1) ∧
    Has eventFormat "Text".toList := by
  unfold Has SameName
  simp only [eventFields, eventOptions, List.forall_mem_cons]
  refine ⟨⟨?_, ?_, ?_, ?_, ?_, ?_, ?_, ?_, ?_, by simp⟩, ⟨?_, ?_, by simp⟩, ?_⟩ <;> decide

/-- **C10 (the usual format).**  Writing an event and reading the line (with the default field list, given or implied)
gives the very same event, if it has no third margins and its text no outer blanks. -/
theorem C10_default {e : Event} (hp : PlainEvent e) (ht : Trimmed e.text) (hT : e.marginT = none) (hB : e.marginB = none) :
    parseEvent e.toAss [] = some e ∧ parseEvent e.toAss eventFormat = some e := by
  have main : parseEvent e.toAss eventFormat = some e := by
    obtain ⟨e', h1, hk, hf, ho, hx, -⟩ :=
      C10_text_last_partial (pre := eventFormat.dropLast) (e := e) spelled_default (by decide) hp
    have h1 : parseEvent e.toAss eventFormat = some e' := h1
    rw [h1]
    obtain ⟨d1, d2, d3⟩ := has_default
    have hx : Stripped e.text e'.text := hx d3
    have hxx : e'.text = e.text := by
      rw [← Handlers.stripped_eq hx, EventCmd.trimmed_trim ht]
    have hf' := fun f hm => (hf f hm).1 (d1 f hm)
    have ho' := fun f hm => (ho f hm).2 (d2 f hm)
    simp only [eventFields, eventOptions, List.forall_mem_cons] at hf' ho'
    obtain ⟨a1, a2, a3, a4, a5, a6, a7, a8, a9, -⟩ := hf'
    obtain ⟨b1, b2, -⟩ := ho'
    cases e; cases e'
    simp only at *
    subst_vars
    rfl
  refine ⟨?_, main⟩
  rw [← main]
  unfold parseEvent eventData
  rfl

private def ev0 : Event :=
  ⟨.comment, "0".toList, "0:00:01.00".toList, "0:00:02.00".toList, "Default".toList, [], "0".toList, "0".toList,
   "0".toList, none, none, [], "a, {\\pos(1,2)}b".toList⟩

example : PlainEvent ev0 ∧ Trimmed ev0.text ∧
    parseEvent "Comment: 0,0:00:01.00,0:00:02.00,Default,,0,0,0,,a, {\\pos(1,2)}b".toList [] = some ev0 := by
  refine ⟨⟨?_, ?_⟩, ?_, by decide⟩
  · simp only [eventFields, List.forall_mem_cons, ev0]
    unfold Plain Trimmed White
    simp
  · simp only [eventOptions, List.forall_mem_cons, ev0]; simp
  · unfold Trimmed White ev0; simp

private theorem ev0_plain : PlainEvent ev0 := by
  refine ⟨?_, ?_⟩
  · simp only [eventFields, List.forall_mem_cons, ev0]
    unfold Plain Trimmed White
    simp
  · simp only [eventOptions, List.forall_mem_cons, ev0]; simp

example : EventSpelled (["MarginT".toList, "Foo".toList, "Start".toList] ++ ["Text".toList]) ∧
    parseEvent "Comment: 0,,0:00:01.00,a, {\\pos(1,2)}b".toList ["MarginT".toList, "Foo".toList, "Start".toList, "Text".toList] =
      some { eventOf .comment [] [] with marginT := some ['0'], start := "0:00:01.00".toList, text := ev0.text } ∧
    ev0.toAssWith ["MarginT".toList, "Foo".toList, "Start".toList, "Text".toList] =
      "Comment: 0,,0:00:01.00,a, {\\pos(1,2)}b".toList :=
  ⟨by unfold EventSpelled SameName; decide, by decide, by decide⟩

example : ∃ e', parseEvent (ev0.toAssWith ["End".toList, "Style".toList]) ["End".toList, "Style".toList] = some e' ∧
    KeptEvent ["End".toList, "Style".toList] ev0 e' ∧ ev0.toAssWith ["End".toList, "Style".toList] = "Comment: 0:00:02.00,Default".toList := by
  obtain ⟨e', h1, h2⟩ := C10_no_text_partial (e := ev0) (fmt := ["End".toList, "Style".toList])
    (by unfold EventSpelled SameName; decide) (by decide) (by decide) (by decide) ev0_plain
  exact ⟨e', h1, h2, by decide⟩

/-- **C10 fails** for a text with outer blanks: they are lost. -/
theorem C10_blanks_violated : ∃ e e' : Event, PlainEvent e ∧ parseEvent e.toAss [] = some e' ∧ e'.text ≠ e.text :=
  ⟨{ ev0 with text := " a".toList }, { ev0 with text := "a".toList }, by
    refine ⟨?_, ?_⟩
    · simp only [eventFields, List.forall_mem_cons, ev0]
      unfold Plain Trimmed White
      simp
    · simp only [eventOptions, List.forall_mem_cons, ev0]; simp, by decide, by decide⟩

/-- **C10 fails** for field names the reader takes but the writer does not (and conversely): `start` in lower case is
written empty; `Actor` is written but not read. -/
theorem C10_names_violated : ∃ (e e1 e2 : Event) (f1 f2 : List Str), PlainEvent e ∧
    parseEvent (e.toAssWith f1) f1 = some e1 ∧ parseEvent "Comment: 0:00:01.00,x".toList f1 = some { e1 with start := e.start } ∧
    e1.start = [] ∧ e.start ≠ [] ∧
    parseEvent (e.toAssWith f2) f2 = some e2 ∧ e.toAssWith f2 = "Comment: Bob,x".toList ∧ e2.name = [] := by
  refine ⟨{ ev0 with text := "x".toList, name := "Bob".toList }, _, _, ["start".toList, "Text".toList],
    ["Actor".toList, "Text".toList], ?_, rfl, by decide, by decide, by decide, rfl, by decide, by decide⟩
  refine ⟨?_, ?_⟩
  · simp only [eventFields, List.forall_mem_cons, ev0]
    unfold Plain Trimmed White
    simp
  · simp only [eventOptions, List.forall_mem_cons, ev0]; simp

/-- **C10 fails** for a field list in which the text is not last: its commas move the other fields. -/
theorem C10_text_middle_violated : ∃ (e e' : Event) (fmt : List Str), PlainEvent e ∧ EventSpelled fmt ∧
    parseEvent (e.toAssWith fmt) fmt = some e' ∧ e'.style ≠ e.style := by
  refine ⟨ev0, _, ["Text".toList, "Style".toList], ?_, by unfold EventSpelled SameName; decide, rfl, by decide⟩
  refine ⟨?_, ?_⟩
  · simp only [eventFields, List.forall_mem_cons, ev0]
    unfold Plain Trimmed White
    simp
  · simp only [eventOptions, List.forall_mem_cons, ev0]; simp

/-! ## Styles -/

private theorem svalue_plain {s : Style} (h : PlainStyle s) (f : Str) : Plain (s.value f) := by
  obtain ⟨h1, h2⟩ := h
  simp only [styleFields, styleOptions, List.forall_mem_cons] at h1 h2
  obtain ⟨a1, a2, a3, a4, a5, a6, a7, a8, a9, a10, a11, a12, a13, a14, a15, a16, a17, a18, a19, a20, a21, a22, a23, -⟩ := h1
  obtain ⟨b1, b2, b3, -⟩ := h2
  unfold Style.value
  exact plain_ite a1 (plain_ite a2 (plain_ite a3 (plain_ite a4 (plain_ite a5 (plain_ite a6 (plain_ite a7 (plain_ite a8 (plain_ite a9 (plain_ite a10 (plain_ite a11 (plain_ite a12 (plain_ite a13 (plain_ite a14 (plain_ite a15 (plain_ite a16 (plain_ite a17 (plain_ite a18 (plain_ite a19 (plain_ite a20 (plain_ite a21 (plain_ite a22 (plain_ite (plain_option b1) (plain_ite (plain_option b2) (plain_ite a23 (plain_ite (plain_option b3) plain_nil)))))))))))))))))))))))))

private theorem svalue {s : Style} {fmt : List Str} (hs : StyleSpelled fmt) {n : Str}
    (hn : n ∈ styleFields.map Prod.fst ++ styleOptions.map Prod.fst) {f : Str} (hf : f ∈ fmt) (h : SameName f n) :
    s.value f = s.value n := by
  rcases hs f hf n hn h with rfl | rfl
  · rfl
  · have : n = "StrikeOut".toList := by
      revert n
      unfold SameName
      decide
    subst this
    rfl

/-- **C11.**  Writing a style by a field list and reading the line (what follows `Style:`) by the same list gives the
style back: every field listed, nothing else.  Missing from the property: the parent style (never written), a first
field that begins with `*`, other spellings of the names. -/
theorem C11_round_trip_partial {s : Style} {fmt : List Str} (hne : fmt ≠ []) (hs : StyleSpelled fmt) (hp : PlainStyle s)
    (hstar : ∀ n, fmt.head? = some n → (s.value n).head? ≠ some '*') :
    ∃ line s', s.toAssWith fmt = "Style:".toList ++ line ∧ parseStyle line fmt = some s' ∧ KeptStyle fmt s s' := by
  have hpl : ∀ x ∈ fmt.map s.value, Plain x := by
    intro x hx
    obtain ⟨f, hf, rfl⟩ := List.mem_map.1 hx
    exact svalue_plain hp f
  have e3 : s.toAssWith fmt = "Style:".toList ++ (' ' :: csv (fmt.map s.value)) := by
    unfold Style.toAssWith
    rw [StyleCmd.joinStr_csv]
    rfl
  obtain ⟨n, fmt', rfl⟩ : ∃ n fmt', fmt = n :: fmt' := by
    cases fmt with
    | nil => exact absurd rfl hne
    | cons n fmt' => exact ⟨n, fmt', rfl⟩
  have hst := hstar n rfl
  -- the line does not begin with a star
  have hhead : ∀ c, (csv ((n :: fmt').map s.value)).head? = some c → c ≠ '*' ∧ ¬ White c := by
    intro c hc
    refine ⟨?_, head_csv (fun x hx => (hpl x hx).2.1) c hc⟩
    rintro rfl
    rw [List.map_cons] at hc
    cases e1 : s.value n with
    | nil => rw [e1] at hc; cases fmt' <;> simp [csv] at hc
    | cons a x =>
      rw [e1] at hc hst
      cases fmt' <;> (simp [csv] at hc; exact hst (by rw [hc]; rfl))
  have hpar : styleParent (' ' :: csv ((n :: fmt').map s.value)) = (' ' :: csv ((n :: fmt').map s.value), none) := by
    unfold styleParent
    rw [if_neg]
    have e1 : trimStart (' ' :: csv ((n :: fmt').map s.value)) = csv ((n :: fmt').map s.value) := by
      cases e2 : csv ((n :: fmt').map s.value) with
      | nil => rfl
      | cons c x =>
        have := SrtDoc.not_white (hhead c (by rw [e2]; rfl)).2
        unfold trimStart
        rw [List.dropWhile_cons_of_pos (by decide), List.dropWhile_cons_of_neg (by simp [this])]
    rw [e1]
    cases e2 : csv ((n :: fmt').map s.value) with
    | nil => decide
    | cons c x =>
      have h1 := (hhead c (by rw [e2]; rfl)).1
      intro h2
      obtain ⟨r, hr⟩ := (startsWith_iff).1 h2
      simp at hr
      exact h1 hr.1
  have hsplit : splitOn ',' (' ' :: csv ((n :: fmt').map s.value)) = (' ' :: s.value n) :: fmt'.map s.value := by
    have : ' ' :: csv ((n :: fmt').map s.value) = csv ((' ' :: s.value n) :: fmt'.map s.value) := by
      rw [List.map_cons]
      cases fmt' <;> simp [csv]
    rw [this, StyleCmd.splitOn_csv (by simp)]
    intro x hx
    cases hx with
    | head => simp; exact (svalue_plain hp n).1
    | tail _ hx => exact (hpl x (by simp only [List.map_cons]; exact List.mem_cons_of_mem _ hx)).1
  have hlen : (n :: fmt').length ≤ ((' ' :: s.value n) :: fmt'.map s.value).length := by simp
  have hz : ∀ p ∈ (n :: fmt').zip ((' ' :: s.value n) :: fmt'.map s.value), p.1 ∈ n :: fmt' ∧ trim p.2 = s.value p.1 := by
    intro p hp'
    rw [List.zip_cons_cons] at hp'
    cases hp' with
    | head =>
      refine ⟨by simp, ?_⟩
      have := trim_csv (l := [s.value n]) (fun x hx => by rw [List.mem_singleton.1 hx]; exact (svalue_plain hp n).2)
      exact this
    | tail _ h =>
      obtain ⟨a, b⟩ := zip_map_mem h
      refine ⟨by simp [a], ?_⟩
      rw [b]
      exact EventCmd.trimmed_trim (svalue_plain hp _).2
  have key : ∀ m ∈ styleFields.map Prod.fst ++ styleOptions.map Prod.fst,
      ∀ p ∈ (n :: fmt').zip ((' ' :: s.value n) :: fmt'.map s.value), SameName p.1 m → trim p.2 = s.value m := by
    intro m hm p hp' hsn
    obtain ⟨a, b⟩ := hz p hp'
    rw [b, svalue hs hm a hsn]
  have g : ∀ m v, m ∈ styleFields.map Prod.fst ++ styleOptions.map Prod.fst → s.value m = v →
      (Has (n :: fmt') m → getField (n :: fmt') ((' ' :: s.value n) :: fmt'.map s.value) m = v) ∧
      (¬ Has (n :: fmt') m → getField (n :: fmt') ((' ' :: s.value n) :: fmt'.map s.value) m = []) := by
    intro m v hm hv
    exact ⟨fun hh => getField_has hlen (fun p hp hsn => (key m hm p hp hsn).trans hv) hh, getField_lacks⟩
  have o : ∀ m v, m ∈ styleFields.map Prod.fst ++ styleOptions.map Prod.fst → s.value m = v →
      (Has (n :: fmt') m → optField (n :: fmt') ((' ' :: s.value n) :: fmt'.map s.value) m = some v) ∧
      (¬ Has (n :: fmt') m → optField (n :: fmt') ((' ' :: s.value n) :: fmt'.map s.value) m = none) := by
    intro m v hm hv
    exact ⟨fun hh => optField_has hlen (fun p hp hsn => (key m hm p hp hsn).trans hv) hh, optField_lacks⟩
  refine ⟨_, styleOf none (n :: fmt') ((' ' :: s.value n) :: fmt'.map s.value), e3, ?_, ?_⟩
  · unfold parseStyle
    rw [hpar]
    simp only
    rw [hsplit, if_neg (by simp), if_neg (by simp)]
  · refine ⟨rfl, ?_, ?_⟩
    · simp only [styleFields, List.forall_mem_cons]
      refine ⟨?_, ?_, ?_, ?_, ?_, ?_, ?_, ?_, ?_, ?_, ?_, ?_, ?_, ?_, ?_, ?_, ?_, ?_, ?_, ?_, ?_, ?_, ?_, by simp⟩
      all_goals exact g _ _ (by decide) rfl
    · simp only [styleOptions, List.forall_mem_cons]
      refine ⟨?_, ?_, ?_, by simp⟩
      all_goals exact o _ _ (by decide) rfl

private theorem sspelled_default : StyleSpelled styleFormat := by
  unfold StyleSpelled SameName
  decide

private theorem shas_default : (∀ f ∈ styleFields, Has styleFormat f.1) ∧ (∀ f ∈ styleOptions, ¬ Has styleFormat f.1) := by
  unfold Has SameName
  simp only [styleFields, styleOptions, List.forall_mem_cons]
  refine ⟨⟨?_, ?_, ?_, ?_, ?_, ?_, ?_, ?_, ?_, ?_, ?_, ?_, ?_, ?_, ?_, ?_, ?_, ?_, ?_, ?_, ?_, ?_, ?_, by simp⟩,
    ⟨?_, ?_, ?_, by simp⟩⟩ <;> decide

/-- **C11 (the usual format).**  Writing a style and reading the line (with the default field list, given or implied)
gives the very same style, if it has no parent and no optional fields and its name does not begin with `*`. -/
theorem C11_default {s : Style} (hp : PlainStyle s) (hn : s.name.head? ≠ some '*') (h0 : s.parent = none)
    (hT : s.marginT = none) (hB : s.marginB = none) (hR : s.relativeTo = none) :
    ∃ line, s.toAss = "Style:".toList ++ line ∧ parseStyle line [] = some s ∧ parseStyle line styleFormat = some s := by
  obtain ⟨line, s', h1, h2, hk, hf, ho⟩ := C11_round_trip_partial (fmt := styleFormat) (by decide) sspelled_default hp (by
    intro n hn'
    have : n = "Name".toList := by
      have : some "Name".toList = some n := hn'
      exact (Option.some.inj this).symm
    subst this
    exact hn)
  have hs : s' = s := by
    obtain ⟨d1, d2⟩ := shas_default
    have hf' := fun f hm => (hf f hm).1 (d1 f hm)
    have ho' := fun f hm => (ho f hm).2 (d2 f hm)
    simp only [styleFields, styleOptions, List.forall_mem_cons] at hf' ho'
    obtain ⟨a1, a2, a3, a4, a5, a6, a7, a8, a9, a10, a11, a12, a13, a14, a15, a16, a17, a18, a19, a20, a21, a22, a23, -⟩ := hf'
    obtain ⟨b1, b2, b3, -⟩ := ho'
    cases s; cases s'
    simp only at *
    subst_vars
    rfl
  subst hs
  exact ⟨line, h1, h2, h2⟩

private def st0 : Style :=
  ⟨"Main".toList, none, "Arial".toList, "20".toList, "&H00FFFFFF".toList, "&H000000FF".toList, "&H00000000".toList,
   "&H00000000".toList, "0".toList, "0".toList, "0".toList, "0".toList, "100".toList, "100".toList, "0".toList, "0".toList,
   "1".toList, "2".toList, "2".toList, "2".toList, "10".toList, "10".toList, "10".toList, none, none, "1".toList, none⟩

private theorem st0_plain : PlainStyle st0 := by
  refine ⟨?_, ?_⟩
  · simp only [styleFields, List.forall_mem_cons, st0]
    unfold Plain Trimmed White
    simp
  · simp only [styleOptions, List.forall_mem_cons, st0]; simp

example : PlainStyle st0 ∧ st0.name.head? ≠ some '*' ∧
    parseStyle " Main,Arial,20,&H00FFFFFF,&H000000FF,&H00000000,&H00000000,0,0,0,0,100,100,0,0,1,2,2,2,10,10,10,1".toList []
      = some st0 := ⟨st0_plain, by decide, by decide⟩

example : ∃ line s', st0.toAssWith ["Name".toList, "Strikeout".toList, "MarginT".toList] = "Style:".toList ++ line ∧
    parseStyle line ["Name".toList, "Strikeout".toList, "MarginT".toList] = some s' ∧
    KeptStyle ["Name".toList, "Strikeout".toList, "MarginT".toList] st0 s' ∧ s'.marginT = some "0".toList := by
  obtain ⟨line, s', h1, h2, h3⟩ := C11_round_trip_partial (s := st0) (fmt := ["Name".toList, "Strikeout".toList, "MarginT".toList])
    (by decide) (by unfold StyleSpelled SameName; decide) st0_plain (by intro n h; cases h; decide)
  refine ⟨line, s', h1, h2, h3, ?_⟩
  exact (h3.2.2 ("MarginT".toList, Style.marginT) (by simp [styleOptions])).1 ⟨"MarginT".toList, by simp, rfl⟩

/-- **C11 fails** for a style with a parent: the line `*Parent,Name,…` is read as a style that has one, and written
without it. -/
theorem C11_parent_violated : ∃ (line line' : Str) (s s' : Style), parseStyle line [] = some s ∧ PlainStyle s ∧
    s.toAss = "Style:".toList ++ line' ∧ parseStyle line' [] = some s' ∧ s.parent = some "Main".toList ∧ s'.parent = none := by
  refine ⟨"*Main,Alt,Arial,20,&H00FFFFFF,&H000000FF,&H00000000,&H00000000,0,0,0,0,100,100,0,0,1,2,2,2,10,10,10,1".toList,
    _, { st0 with name := "Alt".toList, parent := some "Main".toList }, { st0 with name := "Alt".toList }, by decide, ?_,
    rfl, by decide, rfl, rfl⟩
  refine ⟨?_, ?_⟩
  · simp only [styleFields, List.forall_mem_cons, st0]
    unfold Plain Trimmed White
    simp
  · simp only [styleOptions, List.forall_mem_cons, st0]; simp

/-- **C11 fails** for a style whose name begins with `*`: the line is taken for one with a parent and, a field being
missing then, refused. -/
theorem C11_star_violated : ∃ (s : Style) (line : Str), PlainStyle s ∧ s.parent = none ∧
    s.toAss = "Style:".toList ++ line ∧ parseStyle line [] = none := by
  refine ⟨{ st0 with name := "*Main".toList }, _, ?_, rfl, rfl, by decide⟩
  refine ⟨?_, ?_⟩
  · simp only [styleFields, List.forall_mem_cons, st0]
    unfold Plain Trimmed White
    simp
  · simp only [styleOptions, List.forall_mem_cons, st0]; simp

/-- **C11 fails** for field names the reader takes but the writer does not: `fontname` is written empty. -/
theorem C11_names_violated : ∃ (s s' : Style) (line : Str) (fmt : List Str), PlainStyle s ∧
    s.toAssWith fmt = "Style:".toList ++ line ∧ parseStyle line fmt = some s' ∧
    parseStyle " Main,Arial".toList fmt = some { s' with fontname := s.fontname } ∧ s'.fontname = [] ∧ s.fontname ≠ [] :=
  ⟨st0, { styleOf none [] [] with name := "Main".toList }, " Main,".toList, ["Name".toList, "fontname".toList], st0_plain, by decide, by decide,
    by decide, by decide, by decide⟩

end Verif.Ast
