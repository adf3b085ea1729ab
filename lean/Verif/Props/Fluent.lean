import Verif.Model.Fluent
import Verif.Spec.Fluent
import Verif.Props.Query
import Verif.Props.RoundTrip
import Verif.Props.EventCmd
/-! Property C124: the fluent operations on events. -/
namespace Verif.Props
open Verif
open Verif.Fluent
open Verif.Doc (Doc)
open Verif.Ast (Event Kind)
open Verif.Parser (Section Script toAss parse sectionToAss formatToAss rawOf bodyOf fmtLines)
open Verif.Query (Info Filter)
open Verif.Spec.Query (allEvents Meets Fits)
open Verif.Spec.Fluent
open Verif.Spec.EventCmd (IsEvent Lacks Head table Without)
open Verif.Spec.RoundTrip (Content content Writable)
open Verif.EventCmd (batchDelete)

/-! ## Reading -/

theorem nth_spec (index : Nat) : ∀ (l : List Event) (n : Nat), n ≤ index →
    nth index n l = (l[index - n]?).map (fun e => ⟨index, e, 1, (0, 0)⟩)
  | [], n, _ => by simp [nth]
  | e :: l, n, h => by
    rw [nth]
    by_cases hn : n = index
    · subst hn; simp
    · rw [if_neg hn, nth_spec index l (n + 1) (by omega)]
      have : index - n = (index - (n + 1)) + 1 := by omega
      rw [this, List.getElem?_cons_succ]

theorem flat_all (L : List Section) : L.flatMap Query.eventsOf = allEvents L := by
  induction L with
  | nil => rfl
  | cons s L ih => cases s <;> simp [Query.eventsOf, allEvents, ih]

theorem count_all (L : List Section) (n : Nat) :
    L.foldl (fun n s => n + (Query.eventsOf s).length) n = n + (allEvents L).length := by
  induction L generalizing n with
  | nil => rfl
  | cons s L ih =>
    rw [List.foldl_cons, ih]
    cases s <;> simp [Query.eventsOf, allEvents] <;> omega

/-- **C124.** Reading events by number: `get` gives the event with that number among all events of the parsed document, every getter the
corresponding part of it, `exists` whether there is one, and `count` how many there are. -/
theorem C124_get {α : Type} (d : Doc) (sc : Script) (index : Nat) (part : Event → α) (hp : parse d.text = some sc) :
    (∃ o, Fluent.get index d = .ok o ∧ o.map (fun i => (i.index, i.event)) = ((allEvents sc.sections)[index]?).map (fun e => (index, e))) ∧
    field part index d = .ok (((allEvents sc.sections)[index]?).map part) ∧
    exists_ index d = .ok (decide (index < (allEvents sc.sections).length)) ∧
    count d = .ok (allEvents sc.sections).length := by
  have hg : Fluent.get index d = .ok (((allEvents sc.sections)[index]?).map (fun e => ⟨index, e, 1, (0, 0)⟩)) := by
    unfold Fluent.get DocEdit.withScript
    rw [hp]
    simp only
    rw [flat_all, nth_spec index _ 0 (by omega)]
    simp
  refine ⟨⟨_, hg, ?_⟩, ?_, ?_, ?_⟩
  · simp [Option.map_map, Function.comp_def]
  · unfold field; rw [hg]; simp [Option.map_map, Function.comp_def]
  · unfold exists_; rw [hg]; simp
    by_cases h : index < (allEvents sc.sections).length
    · simp [h]
    · simp [h]
  · unfold count DocEdit.withScript
    rw [hp]
    simp only
    rw [count_all]
    simp

/-! ## Deleting by a condition -/

theorem joinStr_two (sep a b : Str) (l : List Str) : joinStr sep (a :: b :: l) = a ++ sep ++ joinStr sep (b :: l) := by
  rw [joinStr] <;> simp

theorem joinStr_around (sep : Str) : ∀ (X : List Str) (y : Str) (Y : List Str),
    joinStr sep (X ++ y :: Y) = X.flatMap (fun x => x ++ sep) ++ y ++ Y.flatMap (fun z => sep ++ z)
  | [], y, Y => by
    simp only [List.nil_append, List.flatMap_nil]
    induction Y generalizing y with
    | nil => simp [joinStr]
    | cons z Y ih => rw [joinStr_two, ih]; simp
  | x :: X, y, Y => by
    have : ∃ a b, X ++ y :: Y = a :: b := by cases X <;> simp
    obtain ⟨a, b, h⟩ := this
    rw [List.cons_append, h, joinStr_two, ← h, joinStr_around sep X y Y]
    simp

theorem lacks_header {t : Str} (h : Lacks "[Events]".toList t) : Lacks "[Events]".toList (t ++ "[Events".toList) := by
  intro a b e
  have e2 : t ++ "[Events".toList = (a ++ "[Events".toList) ++ ']' :: b := by rw [e]; simp
  rcases List.append_eq_append_iff.1 e2 with ⟨x, h1, h2⟩ | ⟨x, h1, h2⟩
  · have : ']' ∈ "[Events".toList := by rw [h2]; simp
    exact absurd this (by decide)
  · cases x with
    | nil =>
      have : ']' ∈ "[Events".toList := by rw [List.nil_append] at h2; rw [← h2]; simp
      exact absurd this (by decide)
    | cons c x =>
      rw [List.cons_append, List.cons.injEq] at h2
      refine h a x ?_
      rw [h1, ← h2.1]
      simp

theorem lacks_lines {t : Str} (h : Lacks "[Events]".toList t) : Lacks "[Events]".toList (t ++ ['\n']) := by
  intro a b e
  rcases List.eq_nil_or_concat b with rfl | ⟨b', c, rfl⟩
  · have := congrArg List.getLast? e
    simp at this
  · have e2 : t ++ ['\n'] = (a ++ "[Events]".toList ++ b') ++ [c] := by rw [e]; simp
    exact h a b' (List.append_inj_left' e2 rfl)

/-- What stands before the section. -/
theorem before_lacks (g : Section → Str) (A : List Section) (h : Lacks "[Events]".toList (joinStr ['\n'] (A.map g))) :
    Lacks "[Events]".toList ((A.map g).flatMap (fun x => x ++ ['\n'])) := by
  rcases List.eq_nil_or_concat (A.map g) with e | ⟨X, y, e⟩
  · rw [e]; intro a b h; simp at h
  · rw [e] at h ⊢
    rw [List.concat_eq_append] at h ⊢
    rw [joinStr_around] at h
    have := lacks_lines h
    simpa using this

theorem row_event {e : Event} (f : List Str) (h : Spoken e) : IsEvent (e.toAssWith f) := by
  unfold Ast.Event.toAssWith
  rcases h with h | h <;> rw [h]
  · exact ⟨' ' :: joinStr [','] (f.map e.value), Or.inl rfl⟩
  · exact ⟨' ' :: joinStr [','] (f.map e.value), Or.inr rfl⟩

theorem not_event_of {c : Char} {r : Str} (h1 : c ≠ 'D') (h2 : c ≠ 'C') : ¬ IsEvent (c :: r) := by
  rintro ⟨t, h | h⟩
  · exact h1 (List.cons.inj h).1
  · exact h2 (List.cons.inj h).1

theorem not_event_nil : ¬ IsEvent [] := by
  rintro ⟨t, h | h⟩ <;> exact absurd h (by simp)

theorem fmt_quiet (f : Option (List Str)) : ∀ r ∈ fmtLines f, ¬ IsEvent r := by
  intro r hr
  cases f with
  | none => simp [fmtLines] at hr
  | some f =>
    rw [fmtLines, List.mem_singleton] at hr
    subst hr
    exact not_event_of (c := 'F') (by decide) (by decide)

theorem files_quiet {key : Str} {c : Char} {k : Str} (hk : key = c :: k) (h1 : c ≠ 'D') (h2 : c ≠ 'C') {l : List (Str × List Str)}
    (h : ∀ m ∈ l, ∀ x ∈ m.2, ¬ IsEvent x) : ∀ r ∈ Parser.fileLines key l, ¬ IsEvent r := by
  intro r hr
  unfold Parser.fileLines at hr
  rw [List.mem_flatMap] at hr
  obtain ⟨m, hm, hr⟩ := hr
  rcases List.mem_cons.1 hr with rfl | hr
  · rw [hk]; exact not_event_of h1 h2
  · exact h m hm r hr

theorem body_quiet {sf ef : Option (List Str)} {c : Content} (hw : Writable sf ef c) (h : Quiet c) : ∀ r ∈ bodyOf sf ef c, ¬ IsEvent r := by
  cases c with
  | info fields =>
    intro r hr
    rw [bodyOf, List.mem_map] at hr
    obtain ⟨f, hf, rfl⟩ := hr
    have hc := (hw f hf).colon
    rintro ⟨t, e | e⟩
    · have := (Parser.first_colon (k := f.1) (k' := "Dialogue".toList) (v := ' ' :: f.2) (v' := t) (by simpa using e) hc (by decide)).1
      exact (h f hf).1 this
    · have := (Parser.first_colon (k := f.1) (k' := "Comment".toList) (v := ' ' :: f.2) (v' := t) (by simpa using e) hc (by decide)).1
      exact (h f hf).2 this
  | styles l =>
    intro r hr
    rw [bodyOf, List.mem_append] at hr
    rcases hr with hr | hr
    · exact fmt_quiet _ r hr
    · rw [List.mem_map] at hr
      obtain ⟨s, _, rfl⟩ := hr
      exact not_event_of (c := 'S') (by decide) (by decide)
  | events l => exact h.elim
  | fonts l => exact files_quiet (c := 'f') rfl (by decide) (by decide) h
  | graphics l => exact files_quiet (c := 'f') rfl (by decide) (by decide) h

/-- The lines after the section. -/
def after (sf ef : Option (List Str)) (B : List Section) : List Str :=
  B.flatMap (fun x => [] :: ('[' :: rawOf x ++ [']']) :: bodyOf sf ef (content x))

theorem after_text (sf ef : Option (List Str)) (B : List Section) :
    (B.map (sectionToAss sf ef)).flatMap (fun z => ['\n'] ++ z) = table (after sf ef B) := by
  unfold table after
  induction B with
  | nil => rfl
  | cons x B ih =>
    rw [List.map_cons, List.flatMap_cons, ih, List.flatMap_cons, List.flatMap_append, Parser.section_ended]
    simp [Parser.ended]

theorem after_rows {sf ef : Option (List Str)} {B : List Section} (hw : ∀ x ∈ B, Writable sf ef (content x)) (hq : ∀ x ∈ B, Quiet (content x)) :
    ∀ r ∈ after sf ef B, '\n' ∉ r ∧ ¬ IsEvent r := by
  intro r hr
  unfold after at hr
  rw [List.mem_flatMap] at hr
  obtain ⟨x, hx, hr⟩ := hr
  rcases List.mem_cons.1 hr with rfl | hr
  · exact ⟨by simp, not_event_nil⟩
  rcases List.mem_cons.1 hr with rfl | hr
  · have := Parser.raw_line x
    refine ⟨?_, not_event_of (c := '[') (by decide) (by decide)⟩
    simp only [List.cons_append, List.mem_cons, List.mem_append, not_or]
    exact ⟨by decide, this.1, by decide, by simp⟩
  · exact ⟨(Parser.bodyOf_line (hw x hx) r hr).1, body_quiet (hw x hx) (hq x hx) r hr⟩

theorem without_quiet (is : List Nat) (n : Nat) : ∀ T : List Str, (∀ r ∈ T, ¬ IsEvent r) → Without is n T T
  | [], _ => .nil
  | r :: T, h => .other (h r (by simp)) (without_quiet is n T (fun x hx => h x (by simp [hx])))

theorem without_events (is : List Nat) (fmt : List Str) (keep : Event → Bool) (T : List Str) (hT : ∀ r ∈ T, ¬ IsEvent r) :
    ∀ (l : List Event) (n : Nat), (∀ e ∈ l, Spoken e) → (∀ j e, l[j]? = some e → (n + j ∈ is ↔ keep e = false)) →
      Without is n (l.map (fun e => e.toAssWith fmt) ++ T) ((l.filter keep).map (fun e => e.toAssWith fmt) ++ T)
  | [], n, _, _ => without_quiet is n T hT
  | e :: l, n, hs, hk => by
    have ih := without_events is fmt keep T hT l (n + 1) (fun x hx => hs x (by simp [hx]))
      (fun j x hx => by have := hk (j + 1) x (by simpa using hx); rw [← this, show n + 1 + j = n + (j + 1) by omega])
    have h0 := hk 0 e (by simp)
    have hev := row_event fmt (hs e (by simp))
    rw [List.map_cons, List.cons_append]
    cases hb : keep e with
    | false =>
      rw [List.filter_cons_of_neg (by simp [hb])]
      exact .drop hev (h0.2 hb) ih
    | true =>
      rw [List.filter_cons_of_pos hb, List.map_cons, List.cons_append]
      exact .keep hev (fun hm => by rw [h0.1 hm] at hb; cases hb) ih

theorem events_content : ∀ (L L' : List Section), L'.map content = L.map content → allEvents L' = allEvents L
  | [], [], _ => rfl
  | [], _ :: _, h => by simp at h
  | _ :: _, [], h => by simp at h
  | a :: L, b :: L', h => by
    rw [List.map_cons, List.map_cons, List.cons.injEq] at h
    have ih := events_content L L' h.2
    cases a <;> cases b <;> simp [content] at h <;> simp [allEvents, ih]
    rw [h.1]

theorem events_around (A B : List Section) (l : List (Event × Parser.Span)) (hA : ∀ x ∈ A, ∀ l, content x ≠ .events l)
    (hB : ∀ x ∈ B, Quiet (content x)) : allEvents (A ++ .events l :: B) = l.map Prod.fst := by
  have none : ∀ L : List Section, (∀ x ∈ L, ∀ l, content x ≠ .events l) → allEvents L = [] := by
    intro L
    induction L with
    | nil => intro _; rfl
    | cons x L ih =>
      intro h
      have := ih (fun y hy => h y (by simp [hy]))
      have hx := h x (by simp)
      cases x with
      | events l => exact absurd rfl (hx _)
      | _ => simpa [allEvents] using this
  have app : ∀ X Y : List Section, allEvents (X ++ Y) = allEvents X ++ allEvents Y := by
    intro X Y
    rw [← flat_all, ← flat_all, ← flat_all, List.flatMap_append]
  rw [app, none A hA, List.nil_append]
  show l.map (·.1) ++ allEvents B = _
  rw [none B (fun x hx l e => by have := hB x hx; rw [e] at this; exact this)]
  simp

/-- The text of a script around its section of events. -/
theorem text_around (sf : Option (List Str)) (fmt : List Str) (A B : List Section) (l : List (Event × Parser.Span)) :
    joinStr ['\n'] ((A ++ .events l :: B).map (sectionToAss sf (some fmt))) =
      ((A.map (sectionToAss sf (some fmt))).flatMap (fun x => x ++ ['\n']) ++ "[Events]".toList ++ ['\n'] ++ "Format:".toList ++
        (' ' :: joinStr ", ".toList fmt) ++ ['\n']) ++
      table ((l.map Prod.fst).map (fun e => e.toAssWith fmt) ++ after sf (some fmt) B) := by
  have e : sectionToAss sf (some fmt) (.events l) = "[Events]".toList ++ ['\n'] ++ "Format:".toList ++ (' ' :: joinStr ", ".toList fmt) ++
      ['\n'] ++ table ((l.map Prod.fst).map (fun e => e.toAssWith fmt)) := by
    rw [Parser.events_ended, Parser.head_ended, bodyOf, Parser.ended_append]
    show _ ++ (Parser.ended [_] ++ table _) = _
    simp only [Parser.ended, List.flatMap_cons, List.flatMap_nil, List.append_nil]
    rw [show '[' :: "Events".toList ++ [']', '\n'] = "[Events]".toList ++ ['\n'] from rfl]
    simp only [List.append_assoc, Option.getD_some]
  rw [List.map_append, List.map_cons, joinStr_around, after_text, e]
  unfold table
  rw [List.flatMap_append]
  simp only [List.append_assoc]

/-- **C124, partial.** Deleting the events that meet a condition: the document is the same script without exactly those events.  It is a
script as `Script::to_ass_string` writes it, with one section of events, all dialogues and comments, and a field list.

Missing: other types of events, lines with blanks in front, sections without a field list, `[Events]` in an earlier text (where it fails,
see below), times that do not fit in 32 bits. -/
theorem C124_delete_partial (lower : Str → Str) (f : Filter) (d : Doc) (s : Script) (A B : List Section) (l : List (Event × Parser.Span))
    (fmt : List Str) (keep : Event → Bool) (ht : Tidy s A l B fmt)
    (hkeep : ∀ e ∈ l, keep e.1 = true ↔ ¬ Meets (if f.caseSensitive then id else lower) f e.1) (hd : d.text = toAss s) :
    ∃ d', deleteWhere lower f d = (.ok (), d') ∧
      d'.text = toAss { s with sections := A ++ .events (l.filter (fun e => keep e.1)) :: B } := by
  obtain ⟨hsec, hfmt, hw, hsize, hA, hL, hB, hk, hfit⟩ := ht
  obtain ⟨s', h1, h2, _⟩ := Parser.C75_round_trip_partial hw hsize
  have he : allEvents s'.sections = l.map Prod.fst := by
    rw [events_content _ _ h2, hsec, events_around A B l hA hB]
  obtain ⟨full, g1, g2, _, _, _, g3, _⟩ := C96_query_partial lower s'.sections { filter := f } (by
    rw [he]
    intro e hm
    obtain ⟨x, hx, rfl⟩ := List.mem_map.1 hm
    exact hfit x hx)
  simp only [Option.getD_none, List.take_length] at g3
  have hm : matching lower f d = .ok (full.map (·.index)) := by
    unfold matching DocEdit.withScript
    rw [hd, h1]
    exact g3
  unfold deleteWhere
  rw [hm]
  simp only
  rw [hsec] at hw
  rw [hfmt] at hw
  have ht : d.text = joinStr ['\n'] ((A ++ .events l :: B).map (sectionToAss s.stylesFmt (some fmt))) := by
    rw [hd, toAss, hsec, hfmt]
  rw [text_around] at ht
  have hq := after_rows (B := B) (fun x hx => hw x (by simp [hx])) hB
  have hev := hw (.events l) (by simp)
  have hrow : ∀ r ∈ (l.map Prod.fst).map (fun e => e.toAssWith fmt) ++ after s.stylesFmt (some fmt) B, '\n' ∉ r := by
    intro r hr
    rcases List.mem_append.1 hr with hr | hr
    · refine (Parser.bodyOf_line hev r ?_).1
      rw [content, bodyOf]
      exact List.mem_append_right _ hr
    · exact (hq r hr).1
  have hwo := without_events (full.map (·.index)) fmt keep (after s.stylesFmt (some fmt) B) (fun r hr => (hq r hr).2) (l.map Prod.fst) 0
    (by intro e hm; obtain ⟨x, hx, rfl⟩ := List.mem_map.1 hm; exact hk x hx)
    (by
      intro j e hj
      have hm := List.mem_of_getElem? hj
      obtain ⟨x, hx, hxe⟩ := List.mem_map.1 hm
      have hkx := hkeep x hx
      rw [hxe] at hkx
      rw [Nat.zero_add]
      constructor
      · intro hi
        obtain ⟨i, him, rfl⟩ := List.mem_map.1 hi
        have := g1 i him
        rw [he, hj] at this
        cases hb : keep e with
        | false => rfl
        | true => exact absurd (Option.some.inj this.1 ▸ this.2) (hkx.1 hb)
      · intro hb
        have : Meets (if f.caseSensitive then id else lower) f e := by
          refine Classical.byContradiction fun hn => ?_
          rw [hkx.2 hn] at hb
          cases hb
        obtain ⟨i, hi, hij⟩ := g2 j e (by rw [he]; exact hj) this
        exact List.mem_map.2 ⟨i, hi, hij⟩)
  have hhead : Head ((A.map (sectionToAss s.stylesFmt (some fmt))).flatMap (fun x => x ++ ['\n']) ++ "[Events]".toList ++ ['\n'] ++
      "Format:".toList ++ (' ' :: joinStr ", ".toList fmt) ++ ['\n']) := by
    refine ⟨_, ['\n'], _, rfl, ?_, splitOnceStr_none.1 (by decide), ?_⟩
    · have := before_lacks (sectionToAss s.stylesFmt (some fmt)) A (by rw [toAss, hfmt] at hL; exact hL)
      exact lacks_header this
    · have := (Parser.bodyOf_line hev ("Format:".toList ++ (' ' :: joinStr ", ".toList fmt)) ?_).1
      · exact fun h => this (List.mem_append_right _ h)
      · rw [content, bodyOf]
        exact List.mem_append_left _ (List.mem_singleton.2 rfl)
  obtain ⟨d', k1, k2⟩ := C65_batch d _ _ _ _ hhead hrow hwo ht
  refine ⟨d', k1, ?_⟩
  rw [k2, toAss, hfmt, text_around]
  simp only [List.filter_map, Function.comp_def]

/-- **C124, partial.** The ready-made conditions: deleting the dialogues leaves the others, deleting the comments the others, deleting all
leaves none; deleting by style or text leaves the events without it, deleting by times those not within them.  (Missing: as above.) -/
theorem C124_kinds_partial (lower : Str → Str) (d : Doc) (s : Script) (A B : List Section) (l : List (Event × Parser.Span))
    (fmt : List Str) (keep : Event → Bool) (p : Str) (a b : Nat) (ht : Tidy s A l B fmt) (hd : d.text = toAss s) :
    (∃ d', deleteDialogues lower d = (.ok (), d') ∧
      d'.text = toAss { s with sections := A ++ .events (l.filter (fun e => decide (e.1.kind ≠ .dialogue))) :: B }) ∧
    (∃ d', deleteComments lower d = (.ok (), d') ∧
      d'.text = toAss { s with sections := A ++ .events (l.filter (fun e => decide (e.1.kind ≠ .comment))) :: B }) ∧
    (∃ d', deleteAll lower d = (.ok (), d') ∧ d'.text = toAss { s with sections := A ++ .events [] :: B }) ∧
    ((∀ e ∈ l, keep e.1 = true ↔ ¬ Spec.Query.In (lower p) (lower e.1.style)) → ∃ d', deleteStyle lower p d = (.ok (), d') ∧
      d'.text = toAss { s with sections := A ++ .events (l.filter (fun e => keep e.1)) :: B }) ∧
    ((∀ e ∈ l, keep e.1 = true ↔ ¬ Spec.Query.In (lower p) (lower e.1.text)) → ∃ d', deleteContaining lower p d = (.ok (), d') ∧
      d'.text = toAss { s with sections := A ++ .events (l.filter (fun e => keep e.1)) :: B }) ∧
    ((∀ e ∈ l, keep e.1 = true ↔ ¬ ∃ u v, Spec.Query.Clock e.1.start u ∧ Spec.Query.Clock e.1.stop v ∧ a ≤ u ∧ v ≤ b) →
      ∃ d', deleteInTime lower a b d = (.ok (), d') ∧
        d'.text = toAss { s with sections := A ++ .events (l.filter (fun e => keep e.1)) :: B }) := by
  refine ⟨?_, ?_, ?_, ?_, ?_, ?_⟩
  · refine C124_delete_partial lower { kind := some .dialogue } d s A B l fmt (fun e => decide (e.kind ≠ .dialogue)) ht ?_ hd
    intro e _
    rw [decide_eq_true_iff]
    refine not_congr ⟨fun h => ⟨fun k hk => by cases hk; exact h, ?_, ?_, ?_, ?_, ?_, ?_⟩, fun h => h.kind _ rfl⟩ <;> intros <;> contradiction
  · refine C124_delete_partial lower { kind := some .comment } d s A B l fmt (fun e => decide (e.kind ≠ .comment)) ht ?_ hd
    intro e _
    rw [decide_eq_true_iff]
    refine not_congr ⟨fun h => ⟨fun k hk => by cases hk; exact h, ?_, ?_, ?_, ?_, ?_, ?_⟩, fun h => h.kind _ rfl⟩ <;> intros <;> contradiction
  · have := C124_delete_partial lower {} d s A B l fmt (fun _ => false) ht (by
      intro e _
      have : Meets (if ({} : Filter).caseSensitive then id else lower) {} e.1 := by
        refine ⟨?_, ?_, ?_, ?_, ?_, ?_, ?_⟩ <;> intros <;> contradiction
      exact ⟨fun h => absurd h (by decide), fun h => absurd this h⟩) hd
    rwa [show l.filter (fun _ => false) = [] by simp] at this
  · intro hk
    refine C124_delete_partial lower { style := some p } d s A B l fmt keep ht ?_ hd
    intro e he
    rw [hk e he]
    refine not_congr ⟨fun h => ⟨?_, fun q hq => by cases hq; exact h, ?_, ?_, ?_, ?_, ?_⟩, fun h => h.style _ rfl⟩ <;> intros <;> contradiction
  · intro hk
    refine C124_delete_partial lower { text := some p } d s A B l fmt keep ht ?_ hd
    intro e he
    rw [hk e he]
    refine not_congr ⟨fun h => ⟨?_, ?_, ?_, fun q hq => by cases hq; exact h, ?_, ?_, ?_⟩, fun h => h.text _ rfl⟩ <;> intros <;> contradiction
  · intro hk
    refine C124_delete_partial lower { time := some (a, b) } d s A B l fmt keep ht ?_ hd
    intro e he
    rw [hk e he]
    refine not_congr ⟨fun h => ⟨?_, ?_, ?_, ?_, ?_, ?_, fun x y hq => by cases hq; exact h⟩, fun h => h.time _ _ rfl⟩ <;> intros <;> contradiction

private def src1 : Str :=
  "[Script Info]\nTitle: A\n\n[Events]\nFormat: Start, End, Text\nDialogue: 0:00:01.00,0:00:02.00,a, b\nComment: 1,2,x\nDialogue: 3,4,c\n".toList

private def doc (t : Str) : Doc := ⟨t, Doc.Stack.new ⟨50, 0, 100⟩⟩

private def ev (k : Kind) (a b t : String) : Event :=
  { Ast.eventOf k [] [] with start := a.toList, stop := b.toList, text := t.toList }

private def script1 : Script :=
  ⟨.ass4, [.info [("Title".toList, "A".toList)] ⟨0, 0, 0, 0⟩, .events [(ev .dialogue "0:00:01.00" "0:00:02.00" "a, b", ⟨0, 0, 0, 0⟩),
    (ev .comment "1" "2" "x", ⟨0, 0, 0, 0⟩), (ev .dialogue "3" "4" "c", ⟨0, 0, 0, 0⟩)]], [], none,
    some ["Start".toList, "End".toList, "Text".toList]⟩

example : toAss script1 = src1 := by decide +kernel

set_option maxRecDepth 20000 in
/-- Deleting the dialogues of a script. -/
example : (fun r : Outcome Unit × Doc => (r.1, r.2.text)) (deleteDialogues id (doc src1)) =
    (.ok (), "[Script Info]\nTitle: A\n\n[Events]\nFormat: Start, End, Text\nComment: 1,2,x\n".toList) := by decide +kernel

private theorem clock_fits {s : Str} {v : Nat} (hc : Spec.Query.Clock s v) (hp : Query.parseTime s ≠ .panic) : v < 2 ^ 32 := by
  refine Classical.byContradiction fun hn => ?_
  refine hp ?_
  obtain ⟨h, m, a, b, H, M, S, C, rfl, hH, hM, hS, hC, rfl⟩ := hc
  have e : splitOn ':' (h ++ ':' :: m ++ ':' :: a ++ '.' :: b) = [h, m, a ++ '.' :: b] := by
    rw [show h ++ ':' :: m ++ ':' :: a ++ '.' :: b = h ++ ':' :: (m ++ ':' :: (a ++ '.' :: b)) by simp,
      splitOn_append_sep _ (hH.no_colon ':' (by decide) (by decide)), splitOn_append_sep _ (hM.no_colon ':' (by decide) (by decide)),
      splitOn_of_not_mem]
    simp [hS.no_colon ':' (by decide) (by decide), hC.no_colon ':' (by decide) (by decide)]
  have e2 : splitOn '.' (a ++ '.' :: b) = [a, b] := by
    rw [splitOn_append_sep _ (hS.no_colon '.' (by decide) (by decide)), splitOn_of_not_mem (hC.no_colon '.' (by decide) (by decide))]
  unfold Query.parseTime
  rw [e]
  simp only
  rw [Time.parseU32_iff.2 hH, Time.parseU32_iff.2 hM, e2]
  simp only
  rw [Time.parseU32_iff.2 hS, Time.parseU32_iff.2 hC]
  simp only
  rw [if_neg hn]

/-- That script meets the conditions. -/
example : Tidy script1 [.info [("Title".toList, "A".toList)] ⟨0, 0, 0, 0⟩] [(ev .dialogue "0:00:01.00" "0:00:02.00" "a, b", ⟨0, 0, 0, 0⟩),
    (ev .comment "1" "2" "x", ⟨0, 0, 0, 0⟩), (ev .dialogue "3" "4" "c", ⟨0, 0, 0, 0⟩)] [] ["Start".toList, "End".toList, "Text".toList] := by
  refine ⟨rfl, rfl, ?_, by decide +kernel, ?_, splitOnceStr_none.1 (by decide +kernel), by simp, ?_, ?_⟩
  · intro x hx
    simp only [script1, List.mem_cons, List.not_mem_nil, or_false] at hx
    rcases hx with rfl | rfl
    · intro f hf
      simp only [List.mem_cons, List.not_mem_nil, or_false] at hf
      subst hf
      refine ⟨by decide, ?_, by decide, by decide⟩
      unfold Spec.EventCmd.Trimmed Spec.EventCmd.White
      simp
    · refine ⟨?_, ?_⟩
      · intro f hf
        cases hf
        refine ⟨⟨by decide, ?_⟩, by unfold Spec.Lines.EventSpelled Spec.Lines.SameName; decide,
          Or.inl ⟨["Start".toList, "End".toList], by decide, by decide⟩⟩
        unfold Spec.EventCmd.Trimmed Spec.EventCmd.White
        simp
      · intro s hs
        simp only [List.map_cons, List.map_nil, List.mem_cons, List.not_mem_nil, or_false] at hs
        rcases hs with rfl | rfl | rfl
        all_goals
          refine ⟨⟨?_, ?_⟩, ?_, ⟨?_, ?_, by decide⟩, ?_, ?_, ?_⟩
          · simp only [Spec.Lines.eventFields, List.forall_mem_cons, ev, Ast.eventOf, Ast.getField, Ast.optField, Ast.hasField]
            unfold Spec.EventCmd.Plain Spec.EventCmd.Trimmed Spec.EventCmd.White
            simp
          · simp only [Spec.Lines.eventOptions, List.forall_mem_cons, ev, Ast.eventOf, Ast.getField, Ast.optField, Ast.hasField]; simp
          · unfold Spec.EventCmd.Trimmed Spec.EventCmd.White; simp [ev, Ast.eventOf, Ast.getField]
          · simp only [Spec.Lines.eventFields, List.forall_mem_cons, ev, Ast.eventOf, Ast.getField, Ast.optField, Ast.hasField]; simp
          · simp only [Spec.Lines.eventOptions, List.forall_mem_cons, ev, Ast.eventOf, Ast.getField, Ast.optField, Ast.hasField]; simp
          · unfold Spec.Lines.Has Spec.Lines.SameName Spec.Lines.eventFields; simp only [List.forall_mem_cons, ev, Ast.eventOf, Ast.getField]; simp [script1]
          · unfold Spec.Lines.Has Spec.Lines.SameName Spec.Lines.eventOptions; simp only [List.forall_mem_cons, ev, Ast.eventOf, Ast.optField, Ast.hasField]; simp [script1]
          · unfold Spec.Lines.Has Spec.Lines.SameName; simp [script1]
  · intro x hx l
    simp only [List.mem_cons, List.not_mem_nil, or_false] at hx
    subst hx
    simp [content]
  · intro e he
    simp only [List.mem_cons, List.not_mem_nil, or_false] at he
    rcases he with rfl | rfl | rfl
    · exact Or.inl rfl
    · exact Or.inr rfl
    · exact Or.inl rfl
  · intro e he v hv
    simp only [List.mem_cons, List.not_mem_nil, or_false] at he
    rcases he with rfl | rfl | rfl <;> rcases hv with hv | hv <;> exact clock_fits hv (by decide +kernel)

/-- **C124 fails** with other types of events: they have numbers for the query, but not for the deletion.  Deleting the dialogues deletes
the comment and keeps the dialogue. -/
theorem C124_types_violated : ∃ d : Doc,
    d.text = "[Events]\nFormat: Start, End, Text\nPicture: 1,2,a.png\nDialogue: 1,2,Hello\nComment: 1,2,note\n".toList ∧
    (fun r : Outcome Unit × Doc => (r.1, r.2.text)) (deleteDialogues id d) =
      (.ok (), "[Events]\nFormat: Start, End, Text\nPicture: 1,2,a.png\nDialogue: 1,2,Hello\n".toList) :=
  ⟨doc _, rfl, by decide +kernel⟩

/-- **C124 fails** where an event line begins with a blank: the query counts it, the deletion does not. -/
theorem C124_blank_violated : ∃ d : Doc,
    d.text = "[Events]\nFormat: Start, End, Text\n Dialogue: 1,2,Hello\nComment: 1,2,note\n".toList ∧
    (fun r : Outcome Unit × Doc => (r.1, r.2.text)) (deleteDialogues id d) =
      (.ok (), "[Events]\nFormat: Start, End, Text\n Dialogue: 1,2,Hello\n".toList) :=
  ⟨doc _, rfl, by decide +kernel⟩

set_option maxRecDepth 20000 in
/-- **C124 fails** without a field list: the query finds the event, the deletion no section to delete from. -/
theorem C124_format_violated : ∃ d : Doc,
    d.text = "[Events]\nDialogue: 0,1,2,Default,,0,0,0,,Hello\n".toList ∧ count d = .ok 1 ∧ (deleteAll id d).1 = .err :=
  ⟨doc _, rfl, by decide +kernel⟩

set_option maxRecDepth 20000 in
/-- **C124 fails** where `[Events]` stands in the title: the lines below it count as events, and one of them is deleted instead. -/
theorem C124_title_violated : ∃ d : Doc,
    d.text = "[Script Info]\nTitle: [Events]\nComment: by me\nFormat: x\nDialogue: y\n\n[Events]\nFormat: Start, End, Text\nDialogue: 1,2,Hello\n".toList ∧
    (fun r : Outcome Unit × Doc => (r.1, r.2.text)) (deleteAll id d) =
      (.ok (), "[Script Info]\nTitle: [Events]\nComment: by me\nFormat: x\n\n[Events]\nFormat: Start, End, Text\nDialogue: 1,2,Hello\n".toList) :=
  ⟨doc _, rfl, by decide +kernel⟩

set_option maxRecDepth 20000 in
/-- **C124 fails**: `get` does not know where an event stands; every event is said to be on line 1 at offset 0. -/
theorem C124_place_violated : ∃ d : Doc, d.text = src1 ∧
    (∃ i, Fluent.get 2 d = .ok (some i) ∧ i.event.text = "c".toList ∧ i.line = 1 ∧ i.range = (0, 0)) :=
  ⟨doc _, rfl, ⟨2, ev .dialogue "3" "4" "c", 1, (0, 0)⟩, by decide +kernel, by decide, rfl, rfl⟩

/-! ## Scaling durations -/

open Verif.Spec.EventCmd (Fields Row Count Retimed InRange Moved timeStamp)

theorem toI32_cent (n : Nat) (hn : n < 2 ^ 31) : toI32 ((n : Rat) / 100 * 100) = n := by
  have : (n : Rat) / 100 * 100 = n := by grind
  rw [this]
  unfold toI32
  have h0 : ¬ ((n : Rat) < 0) := Rat.not_lt.2 Rat.natCast_nonneg
  have hf : (n : Rat).floor = n := by
    rw [← Rat.intCast_natCast, Rat.floor_intCast]
  simp only [h0, if_false, hf]
  rw [if_neg (by omega), if_neg (by omega)]

/-- **C124, partial.** Scaling the duration of an event that lasts one second: it then lasts that many hundredths of a second, and nothing
else of the document changes.

Missing: every other duration (see `C124_scale_violated`), and what is missing for moving times (C36). -/
theorem C124_scale_partial (d : Doc) (h t : Str) (rows : List Str) (k : Nat) (f : Fields) (n s : Nat) (hn : 0 < n)
    (hh : Head h) (hrows : ∀ r ∈ rows, Row r) (hc : Count rows k) (hf : f.Safe) (hnl : '\n' ∉ f.line)
    (htail : t = [] ∨ t.head? = some '\n') (hascii : ∀ c ∈ f.line ++ t, c.toNat < 128)
    (hs : Spec.TimeText f.start s) (he : Spec.TimeText f.fin (s + 100)) (hsn : s + 100 + n < 2 ^ 31)
    (hd : d.text = h ++ table rows ++ f.line ++ t) :
    ∃ d' e, Scaled ((n : Rat) / 100) s (s + 100) e ∧ Does (scaleDuration [k] ((n : Rat) / 100)) d (.ok (), d') ∧
      d'.text = h ++ table rows ++ { f with start := timeStamp s, fin := timeStamp e }.line ++ t := by
  obtain ⟨d', h1, h2⟩ := C36_timing_partial d h t rows k f { f with start := timeStamp s, fin := timeStamp (s + n) } 0 ((n : Int) - 100)
    hh hrows hc hf hnl htail hascii
    ⟨s, s + 100, s, s + n, ⟨hs, he, by omega, by omega, by omega, by omega, by omega, by omega⟩, by unfold Moved; omega,
      by unfold Moved; omega, by rw [show max (s + n) (s + 1) = s + n by omega]⟩ hd
  refine ⟨d', s + n, ?_, ?_, h2⟩
  · unfold Scaled
    have : (n : Rat) / 100 * (((s + 100 : Nat) : Rat) - s) = n := by
      rw [Rat.natCast_add]; grind
    rw [this]
    have hfl : (n : Rat).floor = n := by rw [← Rat.intCast_natCast, Rat.floor_intCast]
    rw [hfl]
    omega
  · obtain ⟨m, hm⟩ := h1
    refine ⟨m, fun j hj => ?_⟩
    unfold scaleDuration
    rw [toI32_cent n (by omega)]
    simp only
    rw [if_neg (by omega)]
    exact hm j hj

set_option maxRecDepth 20000 in
/-- One second, scaled by a half. -/
example : (scaleDuration [0] ((50 : Nat) / 100) 9 (exText "Hi")).map (fun r => (r.1, r.2.text)) =
    some (.ok (), exHead ++ "Dialogue: 0,0:00:01.00,0:00:01.50,Default,,0,0,0,,Hi\n".toList) := by decide +kernel

set_option maxRecDepth 20000 in
/-- **C124 fails**: an event of five seconds scaled by two lasts six seconds, not ten. -/
theorem C124_scale_violated : ∃ d : Doc, d.text = exHead ++ "Dialogue: 0,0:00:01.00,0:00:06.00,Default,,0,0,0,,Hi\n".toList ∧
    (scaleDuration [0] 2 9 d).map (fun r => (r.1, r.2.text)) =
      some (.ok (), exHead ++ "Dialogue: 0,0:00:01.00,0:00:07.00,Default,,0,0,0,,Hi\n".toList) ∧ Scaled 2 100 600 1100 ∧ ¬ Scaled 2 100 600 700 :=
  ⟨doc _, rfl, by decide +kernel, by unfold Scaled; decide +kernel, by unfold Scaled; decide +kernel⟩

end Verif.Props
