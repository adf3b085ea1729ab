import Verif.Lemmas.DocEdit
import Verif.Props.Builders
import Verif.Props.Update
import Verif.Props.Incremental
/-!
# C117: editing events and properties through the document
-/
namespace Verif.Props
open Verif
open Verif.Doc
open Verif.DocEdit
open Verif.Ast (Event parseEvent)
open Verif.Builders (EventB)
open Verif.Parser (Script Section parse)
open Verif.Spec.EventCmd (csv)
open Verif.Spec.Script
open Verif.Spec.Incremental (source usual Clean)
open Verif.Spec.Lines (KeptEvent)
open Verif.Spec.RoundTrip (EventFits usualEvent FieldOk)
open Verif.Spec.Builders (PlainB eventNames)
open Verif.Spec.DocEdit

/-- **C117 (one line), partial.** Editing the event with an index changes one line of the text: from the place where the usual beginning
of that event's line occurs first, to the end of that line.  The line becomes the usual line of the event with the fields set, and is
what is returned.

Missing: that this line is the event's (see `C117_edited_partial`, `C117_twin_violated`), that the event was written in the usual way
(see `C117_spacing_violated`) and reads back (see `C117_format_violated`). -/
theorem C117_edit_partial {d : Doc} {sc : Script} {a l post : Str} {i : Nat} {e e' : Event} {upd : Event → List (Str × Str)}
    (hp : parse d.text = some sc) (hi : ((sc.sections.map Spec.Update.says).flatMap eventsIn)[i]? = some e) (hd : d.text = a ++ l ++ post)
    (hl : '\n' ∉ l) (hpost : Ends post) (hb : begins e <+: l) (hf : FirstAt (begins e) d.text a) (hc : Changed e (upd e) e') :
    ∃ d', editByIndex i upd d = (.ok (written e'), d') ∧ d'.text = a ++ written e' ++ post := by
  rw [hd] at hf
  have h1 := lineAt_first hf hl hpost hb
  obtain ⟨d', h2, h3⟩ := put_at d hd (written e')
  refine ⟨d', ?_, h3⟩
  rw [editByIndex, hp]
  dsimp only
  rw [events_says, hi]
  dsimp only
  rw [editEvent, pattern_eq, hd, h1]
  dsimp only
  rw [(changes_iff _ _ _).2 hc]
  dsimp only
  rw [rebuilt_eq, h2]

/-- A document with two events. -/
def twoEvents : Str :=
  "[Script Info]\nTitle: one\n[Events]\nDialogue: 0,0:00:01.00,0:00:02.00,A,,0,0,0,,one\nComment: 1,0:00:03.00,0:00:04.00,B,,0,0,0,,two\n".toList

/-- The document with this text. -/
def docOf (s : Str) : Doc := ⟨s, Stack.new ⟨10, 0, 0⟩⟩

example : (editByIndex 1 (fun _ => [("text".toList, "new".toList), ("style".toList, "C".toList)]) (docOf twoEvents)).2.text =
    "[Script Info]\nTitle: one\n[Events]\nDialogue: 0,0:00:01.00,0:00:02.00,A,,0,0,0,,one\nComment: 1,0:00:03.00,0:00:04.00,C,,0,0,0,,new\n".toList := by
  decide +kernel

/-- **C117 (refused).** An edit succeeds or is refused, and one that is refused leaves the document, with its history, as it was.
Refused are exactly: an index beyond the events, a field name other than the ten documented, and an event whose usual beginning occurs
nowhere in the text. -/
theorem C117_refused (d : Doc) (i : Nat) (upd : Event → List (Str × Str)) {sc : Script} (hp : parse d.text = some sc) :
    ((∃ line, (editByIndex i upd d).1 = .ok line) ∨ editByIndex i upd d = (.err, d)) ∧
    ((editByIndex i upd d).1 = .err ↔ ((sc.sections.map Spec.Update.says).flatMap eventsIn).length ≤ i ∨
      ∃ e, ((sc.sections.map Spec.Update.says).flatMap eventsIn)[i]? = some e ∧
        ((∃ m ∈ upd e, m.1 ∉ fields.map Prod.fst) ∨ ∀ a b, d.text ≠ a ++ begins e ++ b)) := by
  rw [editByIndex, hp]
  dsimp only
  rw [events_says]
  cases he : ((sc.sections.map Spec.Update.says).flatMap eventsIn)[i]? with
  | none => exact ⟨.inr rfl, fun _ => .inl (List.getElem?_eq_none_iff.1 he), fun _ => rfl⟩
  | some e =>
    have hlt := (List.getElem?_eq_some_iff.1 he).1
    dsimp only
    rw [editEvent, pattern_eq]
    cases hl : lineAt (begins e) d.text with
    | none => exact ⟨.inr rfl, fun _ => .inr ⟨e, rfl, .inr (lineAt_none.1 hl)⟩, fun _ => rfl⟩
    | some p =>
      obtain ⟨a, b⟩ := p
      dsimp only
      cases hc : changes e (upd e) with
      | none =>
        refine ⟨.inr rfl, fun _ => .inr ⟨e, rfl, .inl ?_⟩, fun _ => rfl⟩
        exact not_changes hc
      | some e' =>
        dsimp only
        refine ⟨.inl ⟨_, put_line hl _⟩, fun h => ?_, ?_⟩
        · rw [put_line hl] at h; cases h
        · rintro (h | ⟨e1, h1, h⟩)
          · omega
          · cases h1
            rcases h with h | h
            · rw [changes_none h] at hc; cases hc
            · rw [lineAt_none.2 h] at hl; cases hl

example : (editByIndex 2 (fun _ => []) (docOf twoEvents)).1 = .err ∧
    (editByIndex 0 (fun _ => [("colour".toList, "red".toList)]) (docOf twoEvents)).1 = .err := by decide +kernel

/-- What is known of the place of an event's line, and of another line put there. -/
theorem edit_at {d : Doc} {first A b1 l b2 B} {e : Event} {f : Option (List Str)} (h : At d.text first A .events b1 l b2 B)
    (he : EventAt first A b1 l e f) :
    ∃ sc pre es1 es2 post a b, parse d.text = some sc ∧ sc.sections.map Spec.Update.says = pre ++ .events (es1 ++ e :: es2) :: post ∧
      (events sc)[(pre.flatMap eventsIn).length + es1.length]? = some e ∧ lineAt (pattern e) d.text = some (a, b) ∧
      ∀ (new r : Str) (k : Ast.Kind) (e' : Event), new = k.str ++ [':'] ++ r → '\n' ∉ new → parseEvent new (f.getD []) = some e' →
        size (source first (A ++ (.events, b1 ++ new :: b2) :: B)) ≤ 50 * 1024 * 1024 →
        ∃ d' sc', put d a b new = (.ok new, d') ∧ d'.text = source first (A ++ (.events, b1 ++ new :: b2) :: B) ∧
          parse d'.text = some sc' ∧ sc'.sections.map Spec.Update.says = pre ++ .events (es1 ++ e' :: es2) :: post := by
  obtain ⟨o, es, hev⟩ := he.inForce
  obtain ⟨x, hx, hr⟩ := he.reads
  obtain ⟨rest, hl⟩ := he.line
  have hl0 : '\n' ∉ l ∧ ¬ Opens l := ⟨(h.lines l (by simp)).1, (h.lines l (by simp)).2.1⟩
  obtain ⟨⟨sc, p1, p2⟩, -⟩ := at_says h hl0 (by rw [← h.text]; exact h.size)
  rw [cont_line hev hx hr] at p2
  have hne : ∃ c p, begins e = c :: p := by
    cases hb : begins e with
    | nil => exact absurd hb (by unfold begins; cases e.kind <;> exact nofun)
    | cons c p => exact ⟨c, p, rfl⟩
  obtain ⟨c, p, hb⟩ := hne
  have hat := lineAt_at h (c := c) (p := p) (r := rest) (by rw [← hb]; exact hl) (by rw [← hb]; exact he.first)
  have hd : d.text = Incremental.ended (before first A .events b1) ++ l ++ Incremental.after (b2 ++ B.flatMap (fun p => usual p.1 :: p.2)) := by
    rw [h.text]; exact source_line ..
  refine ⟨sc, _, _, _, _, _, _, p1, p2, ?_, by rw [pattern_eq, hb]; exact hat, ?_⟩
  · rw [events_says, p2, List.flatMap_append, List.flatMap_cons, List.getElem?_append_right (by omega)]
    rw [show (List.flatMap eventsIn (A.map (fun p => Incremental.cont p.1 p.2))).length + (es.map (·.1)).length -
      (List.flatMap eventsIn (A.map (fun p => Incremental.cont p.1 p.2))).length = (es.map (·.1)).length by omega]
    simp only [eventsIn, List.append_assoc, List.cons_append, List.getElem?_append_right (Nat.le_refl _), Nat.sub_self, List.getElem?_cons_zero]
  · intro new r k e' hk hnl hread hsize
    subst hk
    obtain ⟨⟨y, hy, hry⟩, hno⟩ := kind_says hread
    obtain ⟨-, sc', q1, q2⟩ := at_says h ⟨hnl, hno⟩ hsize
    rw [cont_line hev hy hry] at q2
    obtain ⟨d', s1, s2⟩ := put_at d hd (k.str ++ [':'] ++ r)
    have s3 : d'.text = source first (A ++ (.events, b1 ++ (k.str ++ [':'] ++ r) :: b2) :: B) := by rw [s2]; exact (source_line ..).symm
    exact ⟨d', sc', s1, s3, by rw [s3]; exact q1, q2⟩

/-- **C117 (the event), partial.** In a document made of known sections, let a line be that of the event `e`, in the usual form, the first
in the text that contains this beginning, and let the usual field list be in force.  Then editing that event by its index changes this
line only, and when the document is read again that event has the fields set and everything else is said as before.

Missing: unknown sections and other spellings of headers; another field list (see `C117_format_violated`); values with commas, outer
blanks or line breaks. -/
theorem C117_edited_partial {d : Doc} {first A b1 l b2 B} {e : Event} {f : Option (List Str)} (h : At d.text first A .events b1 l b2 B)
    (he : EventAt first A b1 l e f) (hf : f = none ∨ f = some usualEvent) :
    ∃ sc pre es1 es2 post, parse d.text = some sc ∧ sc.sections.map Spec.Update.says = pre ++ .events (es1 ++ e :: es2) :: post ∧
      ∀ upd e', Changed e (upd e) e' → EventFits usualEvent e' →
        size (source first (A ++ (.events, b1 ++ written e' :: b2) :: B)) ≤ 50 * 1024 * 1024 →
        ∃ d' sc', editByIndex ((pre.flatMap eventsIn).length + es1.length) upd d = (.ok (written e'), d') ∧
          d'.text = source first (A ++ (.events, b1 ++ written e' :: b2) :: B) ∧
          parse d'.text = some sc' ∧ sc'.sections.map Spec.Update.says = pre ++ .events (es1 ++ e' :: es2) :: post := by
  obtain ⟨sc, pre, es1, es2, post, a, b, p1, p2, p3, p4, p5⟩ := edit_at h he
  refine ⟨sc, pre, es1, es2, post, p1, p2, ?_⟩
  intro upd e' hc hfit hsize
  have hread : parseEvent (written e') (f.getD []) = some e' := by
    rw [written_eq]
    have := Parser.event_reads Parser.usual_event_ok hfit
    rcases hf with rfl | rfl
    · exact this
    · exact this
  obtain ⟨r, hk⟩ := written_kind e'
  have hnl : '\n' ∉ written e' := by rw [written_eq]; exact (Parser.event_line hfit _).1
  obtain ⟨d', sc', s1, s2, s3, s4⟩ := p5 _ r _ e' hk hnl hread hsize
  refine ⟨d', sc', ?_, s2, s3, s4⟩
  rw [editByIndex, p1]
  dsimp only
  rw [p3]
  dsimp only
  rw [editEvent, p4]
  dsimp only
  rw [(changes_iff _ _ _).2 hc]
  dsimp only
  rw [rebuilt_eq, s1]

/-- A document whose second event is looked at. -/
def fmtLine : Str := "Format: Layer, Start, End, Style, Name, MarginL, MarginR, MarginV, Effect, Text".toList
def line1 : Str := "Dialogue: 0,0:00:01.00,0:00:02.00,A,,0,0,0,,one".toList
def line2 : Str := "Comment: 1,0:00:03.00,0:00:04.00,B,,0,0,0,,two, three".toList
def event2 : Event := ⟨.comment, "1".toList, "0:00:03.00".toList, "0:00:04.00".toList, "B".toList, [], "0".toList, "0".toList, "0".toList, none, none, [],
  "two, three".toList⟩
def text2 : Str := source [] ([(.info, ["Title: one".toList])] ++ (.events, [fmtLine, line1] ++ line2 :: [[]]) :: [])

theorem at2 : At text2 [] [(.info, ["Title: one".toList])] .events [fmtLine, line1] line2 [[]] [] where
  text := rfl
  bom := by decide
  first := nofun
  others := clean_lines (by decide +kernel)
  lines := clean_lines (parts := [(Update.Kind.events, [fmtLine, line1] ++ line2 :: [[]])]) (by decide +kernel) _ (List.mem_singleton_self _)
  size := by decide +kernel

theorem eventAt2 : EventAt [] [(.info, ["Title: one".toList])] [fmtLine, line1] line2 event2 (some usualEvent) where
  inForce := by
    have h1 : Says fmtLine ("Format:".toList ++ fmtLine.drop 7) := by
      have := Parser.says_of (l := fmtLine) (by decide)
      rwa [show trim fmtLine = "Format:".toList ++ fmtLine.drop 7 by decide] at this
    have h2 : Says line1 line1 := by
      have := Parser.says_of (l := line1) (by decide)
      rwa [show trim line1 = line1 by decide] at this
    have h3 : Names (fmtLine.drop 7) usualEvent := by
      have := Parser.names_of (fmtLine.drop 7)
      rwa [show Parser.formatFields (fmtLine.drop 7) = usualEvent by decide] at this
    obtain ⟨e, he⟩ : ∃ e, parseEvent line1 usualEvent = some e := ⟨_, rfl⟩
    exact ⟨0, _, .format h1 h3 (.event h2 he (Parser.spans_of (ln := 0) (by decide)) .nil)⟩
  reads := ⟨line2, by
    have := Parser.says_of (l := line2) (by decide)
    rwa [show trim line2 = line2 by decide] at this, by decide⟩
  line := ⟨",B,,0,0,0,,two, three".toList, by decide⟩
  first := by
    have : (before [] [(.info, ["Title: one".toList])] .events [fmtLine, line1]).all (fun m => !containsStr (begins event2) m) = true := by decide
    rw [List.all_eq_true] at this
    rintro m hm ⟨a, b, hab⟩
    have := this m hm
    rw [Bool.not_eq_true'] at this
    exact containsStr_false.1 this a b hab.symm

example : EventFits usualEvent { event2 with text := "new".toList } :=
  ⟨⟨by
      simp only [Spec.Lines.eventFields, List.forall_mem_cons]
      refine ⟨?_, ?_, ?_, ?_, ?_, ?_, ?_, ?_, ?_, nofun⟩ <;> exact Builders.plain_of (by decide),
    by simp only [Spec.Lines.eventOptions, List.forall_mem_cons]; exact ⟨nofun, nofun, nofun⟩⟩,
    (Builders.plain_of (s := "new".toList) (by decide)).2,
    ⟨by decide, by simp only [Spec.Lines.eventOptions, List.forall_mem_cons]; exact ⟨nofun, nofun, nofun⟩, by decide⟩,
    by unfold Spec.Lines.Has Spec.Lines.SameName; decide, by unfold Spec.Lines.Has Spec.Lines.SameName; decide,
    by unfold Spec.Lines.Has Spec.Lines.SameName; decide⟩

/-- **C117, disagreement.** Of two events with the same kind, layer and times, editing the second overwrites the line of the first; the
second stays as it was, and what the first said is lost. -/
theorem C117_twin_violated :
    (editByIndex 1 (fun _ => [("text".toList, "new".toList)]) (docOf
      "[Events]\nDialogue: 0,0:00:01.00,0:00:02.00,A,,0,0,0,,one\nDialogue: 0,0:00:01.00,0:00:02.00,B,,0,0,0,,two\n".toList)).2.text =
    "[Events]\nDialogue: 0,0:00:01.00,0:00:02.00,B,,0,0,0,,new\nDialogue: 0,0:00:01.00,0:00:02.00,B,,0,0,0,,two\n".toList := by
  decide +kernel

/-- **C117, disagreement.** When the section has another field list, the line is still written by the usual one: the event's text, read
back, has commas before it. -/
theorem C117_format_violated : ∃ (d : Doc) (e : Event), (editByIndex 0 (fun _ => [("text".toList, "new".toList)]) d).1 =
      .ok "Dialogue: 0,0:00:01.00,0:00:02.00,,,,,,,new".toList ∧
    (parse d.text).map (fun sc => (sc.sections.map Spec.Update.says).flatMap eventsIn) = some [e] ∧ e.text = "old".toList ∧
    (parse (editByIndex 0 (fun _ => [("text".toList, "new".toList)]) d).2.text).map
      (fun sc => (sc.sections.map Spec.Update.says).flatMap eventsIn) = some [{ e with text := ",,,,,,new".toList }] :=
  ⟨docOf "[Events]\nFormat: Layer, Start, End, Text\nDialogue: 0,0:00:01.00,0:00:02.00,old\n".toList,
    ⟨.dialogue, "0".toList, "0:00:01.00".toList, "0:00:02.00".toList, [], [], [], [], [], none, none, [], "old".toList⟩,
    by decide +kernel, by decide +kernel, rfl, by decide +kernel⟩

/-- **C117, disagreement.** An event written without a blank behind the colon, or with more of them, cannot be edited. -/
theorem C117_spacing_violated : ∃ (d : Doc) (e : Event),
    (parse d.text).map (fun sc => (sc.sections.map Spec.Update.says).flatMap eventsIn) = some [e] ∧ ∀ upd, editByIndex 0 upd d = (.err, d) := by
  refine ⟨docOf "[Events]\nDialogue:0,0:00:01.00,0:00:02.00,A,,0,0,0,,one\n".toList,
    ⟨.dialogue, "0".toList, "0:00:01.00".toList, "0:00:02.00".toList, "A".toList, [], "0".toList, "0".toList, "0".toList, none, none, [], "one".toList⟩,
    by decide +kernel, ?_⟩
  intro upd
  obtain ⟨sc, h1, h2⟩ : ∃ sc, parse "[Events]\nDialogue:0,0:00:01.00,0:00:02.00,A,,0,0,0,,one\n".toList = some sc ∧
      (events sc).map pattern = ["Dialogue: 0,0:00:01.00,0:00:02.00".toList] := by
    have : ((parse "[Events]\nDialogue:0,0:00:01.00,0:00:02.00,A,,0,0,0,,one\n".toList).map (fun sc => (events sc).map pattern)) =
      some ["Dialogue: 0,0:00:01.00,0:00:02.00".toList] := by decide +kernel
    exact Option.map_eq_some_iff.1 this
  rw [editByIndex, docOf, h1]
  dsimp only
  cases he : events sc with
  | nil => rfl
  | cons e es =>
    rw [he, List.map_cons] at h2
    dsimp only [List.getElem?_cons_zero]
    rw [editEvent, (List.cons.inj h2).1]
    have : lineAt "Dialogue: 0,0:00:01.00,0:00:02.00".toList "[Events]\nDialogue:0,0:00:01.00,0:00:02.00,A,,0,0,0,,one\n".toList = none := by
      decide +kernel
    dsimp only
    rw [this]

/-- **C117 (with a builder), partial.** As `C117_edited_partial`, for the first events section when it begins with its field list: the
event is given to the caller as a builder that stands for that very event, and what the builder handed back stands for is written by that
field list, in place of the event's line.  Read again, the event has every listed field as the builder has it, and everything else is said
as before.

Missing: events of other kinds and numbers not in decimal (see `C117_kind_violated`), field names not spelled in the usual way (see
`C117_names_violated`), values with commas, outer blanks or line breaks, sections without a field list. -/
theorem C117_builder_partial {d : Doc} {first A b1 l b2 B fl x} {e : Event} {names : List Str}
    (h : At d.text first A .events (fl :: b1) l b2 B) (he : EventAt first A (fl :: b1) l e (some names))
    (hA : ∀ p ∈ A, p.1 ≠ .events) (hfl : fl = "Format:".toList ++ x) (hn : Names x names) (hu : Usual e)
    (hk : ∀ n ∈ names, n ∈ eventNames)
    (ht : (∃ pre, names = pre ++ ["Text".toList] ∧ "Text".toList ∉ pre) ∨ ("Text".toList ∉ names ∧ names.length ≤ 10)) :
    ∃ sc pre es1 es2 post b, parse d.text = some sc ∧ sc.sections.map Spec.Update.says = pre ++ .events (es1 ++ e :: es2) :: post ∧
      Spec.Builders.event b = e ∧
      ∀ fn : EventB → EventB, PlainB (fn b) → OneLine (fn b) →
        size (source first (A ++ (.events, fl :: b1 ++ (Spec.Builders.event (fn b)).toAssWith names :: b2) :: B)) ≤ 50 * 1024 * 1024 →
        ∃ line d' sc' e', editWithBuilder ((pre.flatMap eventsIn).length + es1.length) fn d = (.ok line, d') ∧
          d'.text = source first (A ++ (.events, fl :: b1 ++ line :: b2) :: B) ∧ parse d'.text = some sc' ∧
          KeptEvent names (Spec.Builders.event (fn b)) e' ∧
          sc'.sections.map Spec.Update.says = pre ++ .events (es1 ++ e' :: es2) :: post := by
  obtain ⟨sc, pre, es1, es2, post, a, b, p1, p2, p3, p4, p5⟩ := edit_at h he
  refine ⟨sc, pre, es1, es2, post, builderOf e, p1, p2, event_filled hu, ?_⟩
  intro fn hp ho hsize
  have hne : names ≠ [] := by
    rintro rfl
    obtain ⟨ps, hps, -, -, hlen, -⟩ := hn
    exact hps (List.length_eq_zero_iff.1 hlen)
  obtain ⟨line, e', h1, h2, h3⟩ := C97_event_partial hp hk hne ht
  have hl : (fn (builderOf e)).buildFormat names = some ((Spec.Builders.event (fn (builderOf e))).toAssWith names) := by
    unfold Builders.EventB.buildFormat Ast.Event.toAssWith
    rw [if_neg hne, Builders.valuesOf_eq (fun f hf => Builders.event_value _ (hk f hf))]
    rfl
  rw [h1] at hl
  obtain rfl := Option.some.inj hl
  obtain ⟨d', sc', s1, s2, s3, s4⟩ := p5 _ _ (Spec.Builders.event (fn (builderOf e))).kind e' (by unfold Ast.Event.toAssWith; rw [List.append_assoc, List.append_assoc]; rfl) (built_line ho names) h2 hsize
  refine ⟨_, d', sc', e', ?_, s2, s3, h3, s4⟩
  rw [editWithBuilder, p1]
  dsimp only
  rw [p3]
  dsimp only
  rw [builtLine, formatLine_at h hA hfl hn]
  dsimp only
  rw [h1]
  dsimp only
  rw [p4]
  dsimp only
  rw [s1]

/-- What `edit_event_with_builder` makes of a text. -/
def builtText (s : String) (i : Nat) (fn : EventB → EventB) : Str := (editWithBuilder i fn (docOf s.toList)).2.text

example : builtText "[Events]\nFormat: Layer, Start, End, Style, Text\nComment: 7,0:00:01.00,0:00:02.00,A,old\n" 0
    (fun b => { b with text := some "new".toList, layer := b.layer.map (· + 1) }) =
    "[Events]\nFormat: Layer, Start, End, Style, Text\nComment: 8,0:00:01.00,0:00:02.00,A,new\n".toList := by decide +kernel

/-- **C117, disagreement.** With a builder that changes nothing, an event of another kind becomes dialogue, and a number that is not one,
or is negative, becomes 0. -/
theorem C117_kind_violated :
    builtText "[Events]\nFormat: Layer, Start, End, MarginL, Text\nPicture: -1,0:00:01.00,0:00:02.00,x,a.png\n" 0 id =
    "[Events]\nFormat: Layer, Start, End, MarginL, Text\nDialogue: 0,0:00:01.00,0:00:02.00,0,a.png\n".toList := by decide +kernel

/-- **C117, disagreement.** A field list that the parser reads, with a name in small letters, is refused. -/
theorem C117_names_violated : ∃ (d : Doc) (e : Event),
    (parse d.text).map (fun sc => (sc.sections.map Spec.Update.says).flatMap eventsIn) = some [e] ∧ e.text = "old".toList ∧
    editWithBuilder 0 id d = (.err, d) := by
  refine ⟨docOf "[Events]\nFormat: Layer, Start, End, text\nDialogue: 0,0:00:01.00,0:00:02.00,old\n".toList,
    ⟨.dialogue, "0".toList, "0:00:01.00".toList, "0:00:02.00".toList, [], [], [], [], [], none, none, [], "old".toList⟩,
    by decide +kernel, rfl, ?_⟩
  have h : (editWithBuilder 0 id (docOf "[Events]\nFormat: Layer, Start, End, text\nDialogue: 0,0:00:01.00,0:00:02.00,old\n".toList)).1 = .err := by
    decide +kernel
  unfold editWithBuilder at h ⊢
  revert h
  repeat' split
  all_goals first | (intro _; rfl) | skip
  all_goals
    intro h
    rename_i hl
    rw [put_line hl] at h
    cases h

/-- **C117 (text), partial.** Replacing the text of an event replaces the first occurrence of the old text in the whole document; when
there is none, nothing is changed and the call succeeds.

Missing: that it is the text of an event that is replaced, see `C117_text_violated`. -/
theorem C117_text_partial (d : Doc) (old new : Str) :
    (∀ a b, d.text = a ++ old ++ b → (∀ a' b', d.text = a' ++ old ++ b' → a.length ≤ a'.length) →
      ∃ d', editEventText old new d = (.ok (), d') ∧ d'.text = a ++ new ++ b) ∧
    ((∀ a b, d.text ≠ a ++ old ++ b) → editEventText old new d = (.ok (), d)) := by
  refine ⟨?_, ?_⟩
  · intro a b h hf
    obtain ⟨b', h1, h2⟩ := find_first (s := d.text) (pat := old) (a := a) ⟨⟨b, h⟩, hf⟩
    have : b' = b := by rw [h, List.append_assoc, List.append_assoc] at h2; exact (List.append_cancel_left (List.append_cancel_left h2)).symm
    subst this
    rw [editEventText, h1]
    exact EventCmd.replace_at d h new
  · intro h
    rw [editEventText, splitOnceStr_none.2 h]

/-- **C117, disagreement.** The text of an event is replaced in the title and in the name of a style as well, when it occurs there first;
the event keeps its text. -/
theorem C117_text_violated :
    (editEventText "one".toList "two".toList (docOf twoEvents)).2.text =
    "[Script Info]\nTitle: two\n[Events]\nDialogue: 0,0:00:01.00,0:00:02.00,A,,0,0,0,,one\nComment: 1,0:00:03.00,0:00:04.00,B,,0,0,0,,two\n".toList := by
  decide +kernel

/-- **C117 (reading properties).** Of several properties with the same name the first one counts; the names listed are those that have a
value. -/
theorem C117_info (d : Doc) {sc : Script} (hp : parse d.text = some sc) (key : Str) :
    (∀ v, getField key d = .ok (some v) ↔ ∃ f1 f2, (sc.sections.map Spec.Update.says).flatMap fieldsIn = f1 ++ (key, v) :: f2 ∧ key ∉ f1.map Prod.fst) ∧
    (getField key d = .ok none ↔ key ∉ ((sc.sections.map Spec.Update.says).flatMap fieldsIn).map Prod.fst) ∧
    infoFields d = .ok (((sc.sections.map Spec.Update.says).flatMap fieldsIn).map Prod.fst) := by
  have hg : getField key d = .ok ((((sc.sections.map Spec.Update.says).flatMap fieldsIn).find? (fun p => p.1 == key)).map Prod.snd) := by
    rw [getField, withScript, hp]
    dsimp only
    rw [values_says]
  refine ⟨?_, ?_, ?_⟩
  · intro v
    rw [hg]
    constructor
    · intro h
      obtain ⟨q, h1, h2⟩ := Option.map_eq_some_iff.1 (Outcome.ok.inj h)
      obtain ⟨h3, f1, f2, h4, h5⟩ := List.find?_eq_some_iff_append.1 h1
      obtain ⟨k, v'⟩ := q
      obtain rfl : k = key := by simpa using h3
      obtain rfl : v' = v := h2
      refine ⟨f1, f2, h4, ?_⟩
      intro hm
      obtain ⟨q, h6, h7⟩ := List.mem_map.1 hm
      have := h5 q h6
      simp [h7] at this
    · rintro ⟨f1, f2, h1, h2⟩
      congr 1
      rw [Option.map_eq_some_iff]
      refine ⟨(key, v), List.find?_eq_some_iff_append.2 ⟨by simp, f1, f2, h1, ?_⟩, rfl⟩
      intro q hq
      have : q.1 ≠ key := fun h => h2 (List.mem_map.2 ⟨q, hq, h⟩)
      simpa using this
  · rw [hg]
    constructor
    · intro h hm
      obtain ⟨q, h1, h2⟩ := List.mem_map.1 hm
      have := List.find?_eq_none.1 (Option.map_eq_none_iff.1 (Outcome.ok.inj h)) q h1
      simp [h2] at this
    · intro h
      congr 1
      rw [Option.map_eq_none_iff, List.find?_eq_none]
      intro q hq h1
      exact h (List.mem_map.2 ⟨q, hq, by simpa using h1⟩)
  · rw [infoFields, withScript, hp]
    dsimp only
    rw [show (fun s => (sectionFields s).map Prod.fst) = fun s => (fieldsIn (Spec.Update.says s)).map Prod.fst from
      funext (fun s => by rw [sectionFields_says]), List.flatMap_map, List.map_flatMap]

example : getField "Title".toList (docOf twoEvents) = .ok (some "one".toList) ∧ infoFields (docOf twoEvents) = .ok ["Title".toList] := by
  decide +kernel

/-- **C117 (setting a property), partial.** When the first line that contains the name and a colon is one of the script info section that
begins with them, setting the property changes this line only, and when the document is read again that property has the value set and
everything else is said as before.

Missing: the name in other lines before (see `C117_field_violated`), blanks around the name, names and values with line breaks or outer
blanks, unknown sections and other spellings of headers. -/
theorem C117_field_partial {d : Doc} {first A b1 b2 B} {key old value : Str}
    (h : At d.text first A .info b1 (key ++ [':'] ++ old) b2 B) (hf : ∀ m ∈ before first A .info b1, ¬ (key ++ [':']) <:+: m)
    (hok : FieldOk (key, value)) (hsize : size (source first (A ++ (.info, b1 ++ (key ++ ": ".toList ++ value) :: b2) :: B)) ≤ 50 * 1024 * 1024) :
    ∃ d' sc sc' v pre f1 f2 post, setField key value d = (.ok (), d') ∧
      d'.text = source first (A ++ (.info, b1 ++ (key ++ ": ".toList ++ value) :: b2) :: B) ∧
      parse d.text = some sc ∧ sc.sections.map Spec.Update.says = pre ++ .info (f1 ++ (key, v) :: f2) :: post ∧
      parse d'.text = some sc' ∧ sc'.sections.map Spec.Update.says = pre ++ .info (f1 ++ (key, value) :: f2) :: post ∧
      (key ∉ ((pre.flatMap fieldsIn) ++ f1).map Prod.fst → getField key d' = .ok (some value)) := by
  have hloud := key_loud hok
  have hk : key ++ ": ".toList ++ value = key ++ [':'] ++ (' ' :: value) := by simp
  have hn : '\n' ∉ key ++ ": ".toList ++ value := by
    have h1 : '\n' ∉ key := hok.line.1
    have h2 : '\n' ∉ value := hok.line.2
    simp [h1, h2]
  obtain ⟨⟨sc, p1, p2⟩, sc', q1, q2⟩ := at_says h ⟨hn, (Parser.field_loud hok).not_opens⟩ hsize
  have hv : trim (' ' :: value) = value := by
    rw [show ' ' :: value = [' '] ++ value from rfl, Handlers.trim_left (by
      intro c hc
      obtain rfl := List.mem_singleton.1 hc
      exact (SrtDoc.white_iff _).1 (by decide))]
    exact EventCmd.trimmed_trim hok.trimmed.2
  rw [Incremental.cont, fields_append, infoLine_key hloud hok.colon hok.trimmed.1] at p2
  rw [Incremental.cont, fields_append, hk, infoLine_key hloud hok.colon hok.trimmed.1, hv] at q2
  obtain ⟨c, p, hcp, -⟩ := hloud
  have hat := lineAt_at h (c := c) (p := p) (r := old) (by rw [← hcp]) (by rw [← hcp]; exact hf)
  have hd : d.text = Incremental.ended (before first A .info b1) ++ (key ++ [':'] ++ old) ++ Incremental.after (b2 ++ B.flatMap (fun p => usual p.1 :: p.2)) := by
    rw [h.text]; exact source_line ..
  obtain ⟨d', s1, s2⟩ := EventCmd.replace_at d hd (key ++ ": ".toList ++ value)
  have s3 : d'.text = source first (A ++ (.info, b1 ++ (key ++ ": ".toList ++ value) :: b2) :: B) := by rw [s2]; exact (source_line ..).symm
  rw [← s3] at q1
  refine ⟨d', sc, sc', trim old, _, _, _, _, ?_, s3, p1, p2, q1, q2, ?_⟩
  · rw [setField, hcp, hat]
    exact s1
  · intro hnot
    refine ((C117_info d' q1 key).1 value).2 ⟨_, b2.flatMap Contents.infoLine ++ (B.map (fun p => Incremental.cont p.1 p.2)).flatMap fieldsIn,
      ?_, hnot⟩
    rw [q2, List.flatMap_append, List.flatMap_cons, fieldsIn]
    simp only [List.append_assoc, List.cons_append, List.nil_append]

example : (setField "Title".toList "two".toList (docOf twoEvents)).2.text =
    "[Script Info]\nTitle: two\n[Events]\nDialogue: 0,0:00:01.00,0:00:02.00,A,,0,0,0,,one\nComment: 1,0:00:03.00,0:00:04.00,B,,0,0,0,,two\n".toList := by
  decide +kernel

/-- **C117, disagreement.** A comment, or another property whose name ends with the name, is changed in place of the property; and a
property that the document does not have is not set, though the call succeeds. -/
theorem C117_field_violated :
    (∃ d : Doc, getField "PlayResX".toList d = .ok (some "1920".toList) ∧ (setField "PlayResX".toList "640".toList d).1 = .ok () ∧
      getField "PlayResX".toList (setField "PlayResX".toList "640".toList d).2 = .ok (some "1920".toList) ∧
      (setField "PlayResX".toList "640".toList d).2.text = "[Script Info]\n; PlayResX: 640\nPlayResX: 1920\n".toList) ∧
    ∃ d : Doc, setField "PlayResX".toList "640".toList d = (.ok (), d) ∧ getField "PlayResX".toList d = .ok none :=
  ⟨⟨docOf "[Script Info]\n; PlayResX: 320\nPlayResX: 1920\n".toList, by decide +kernel, by decide +kernel, by decide +kernel, by decide +kernel⟩,
    docOf "[Script Info]\nTitle: a\n".toList, by rw [setField, show lineAt ("PlayResX".toList ++ [':']) (docOf "[Script Info]\nTitle: a\n".toList).text = none by decide +kernel], by decide +kernel⟩

/-- **C117 (counts).** The numbers of events, styles and sections are those of what the document says; the texts found are those of the
events that contain the pattern, in order; there are event and style sections when there is one. -/
theorem C117_counts (d : Doc) {sc : Script} (hp : parse d.text = some sc) :
    eventsCount d = .ok ((sc.sections.map Spec.Update.says).flatMap eventsIn).length ∧
    stylesCount d = .ok ((sc.sections.map Spec.Update.says).flatMap stylesIn).length ∧
    sectionsCount d = .ok sc.sections.length ∧
    (∀ pat, ∃ found, findEventText pat d = .ok found ∧ found.Sublist (((sc.sections.map Spec.Update.says).flatMap eventsIn).map (·.text)) ∧
      ∀ t, found.count t = if pat <:+: t then (((sc.sections.map Spec.Update.says).flatMap eventsIn).map (·.text)).count t else 0) ∧
    (hasEvents d = .ok true ↔ ∃ l, .events l ∈ sc.sections.map Spec.Update.says) ∧
    (hasStyles d = .ok true ↔ ∃ l, .styles l ∈ sc.sections.map Spec.Update.says) := by
  refine ⟨?_, ?_, ?_, ?_, ?_, ?_⟩
  · rw [eventsCount, withScript, hp]
    dsimp only
    rw [← events_says, events, List.length_flatMap]
  · rw [stylesCount, withScript, hp]
    dsimp only
    rw [List.length_flatMap, List.map_map]
    congr 3
    funext s
    exact sectionStyles_says s
  · rw [sectionsCount, withScript, hp]
  · intro pat
    refine ⟨_, by rw [findEventText, withScript, hp], ?_, ?_⟩
    · rw [← events_says]
      exact List.filter_sublist.map _
    · intro t
      rw [← events_says]
      exact count_texts pat t _
  · rw [hasEvents, withScript, hp]
    simp only [Outcome.ok.injEq, List.any_eq_true, List.mem_map]
    constructor
    · rintro ⟨s, hs, h1⟩
      cases s <;> try cases h1
      exact ⟨_, _, hs, rfl⟩
    · rintro ⟨l, s, hs, h1⟩
      cases s <;> try cases h1
      exact ⟨_, hs, rfl⟩
  · rw [hasStyles, withScript, hp]
    simp only [Outcome.ok.injEq, List.any_eq_true, List.mem_map]
    constructor
    · rintro ⟨s, hs, h1⟩
      cases s <;> try cases h1
      exact ⟨_, _, hs, rfl⟩
    · rintro ⟨l, s, hs, h1⟩
      cases s <;> try cases h1
      exact ⟨_, hs, rfl⟩

example : eventsCount (docOf twoEvents) = .ok 2 ∧ stylesCount (docOf twoEvents) = .ok 0 ∧ sectionsCount (docOf twoEvents) = .ok 2 ∧
    findEventText "o".toList (docOf twoEvents) = .ok ["one".toList, "two".toList] ∧ hasStyles (docOf twoEvents) = .ok false := by decide +kernel

end Verif.Props
