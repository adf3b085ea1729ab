import Verif.Lemmas.Generators
import Verif.Props.Time
import Verif.Props.RoundTrip
/-! # Lemmas about generated scripts: the script -/
namespace Verif.Generators
open Verif Verif.Ast
open Verif.Parser (ended ended_append ended_unlines bodyOf fmtLines strip sections_back bodyOf_line usual_style_ok usual_event_ok rawOf strip_said Section Script Span parse raw_line nil_not_opens)
open Verif.Spec.EventCmd (White Trimmed Plain)
open Verif.Spec.InfoCmd (Stripped)
open Verif.Spec.Script
open Verif.Spec.RoundTrip

open Verif.Spec.Lines
open Verif.Spec.Ovr
open Verif.Spec.Generators (shown decimal signOf)

/-! ## The script -/

open Verif.Spec.Generators (properties)

def styleAt (g : Gen) (i : Nat) : Str := if 1 < g.styles then "Style".toList ++ showNat (i % g.styles) else "Default".toList

def eventAt (g : Gen) (i : Nat) : Event :=
  eventOf (formatTime (clip32 (i * 3000))) (formatTime (clip32 (i * 3000 + 2500))) (styleAt g i) "Speaker".toList (cut g.level i)

theorem eventAt_fits (g : Gen) (i : Nat) : EventFits usualEvent (eventAt g i) := by
  have h := text_fine g.level i
  have hs : (styleAt g i).all calm = true := by
    unfold styleAt
    split
    · rw [List.all_append, showNat_calm]; decide
    · decide
  exact event_fits (formatTime_calm _) (formatTime_calm _) hs (by decide) h.trimmed h.flat

theorem eventAt_line (g : Gen) (i : Nat) : (eventAt g i).toAssWith usualEvent ++ blank g.level i ++ ['\n'] = eventLine g i := by
  have e : ",Speaker,0,0,0,,".toList = [','] ++ "Speaker".toList ++ ",0,0,0,,".toList := by decide
  unfold eventAt eventLine
  rw [event_line, cut_blank, e]
  show _ = "Dialogue: 0,".toList ++ formatTime (clip32 (i * 3000)) ++ [','] ++ formatTime (clip32 (i * 3000 + 2500)) ++ [','] ++ styleAt g i ++ _ ++ _ ++ _
  simp only [List.append_assoc]

theorem blank_white (l : Level) (i : Nat) : ∀ c ∈ blank l i, White c := by
  unfold blank
  split
  · intro c hc
    rw [List.mem_singleton.1 hc]
    exact (SrtDoc.white_iff _).1 (by decide)
  · simp

def linesAt (g : Gen) : List Str := fmtLines (some usualEvent) ++ (List.range g.events).map fun i => (eventAt g i).toAssWith usualEvent ++ blank g.level i

theorem lines_padded (g : Gen) : Padded (bodyOf (some usualStyle) (some usualEvent) (.events ((List.range g.events).map (eventAt g)))) (linesAt g) := by
  apply padded_append (padded_refl _)
  rw [List.map_map]
  generalize List.range g.events = l
  induction l with
  | nil => exact .nil
  | cons i l ih => exact .cons (blank_white g.level i) ih

theorem title_lines (title : Str) : info title ++ ['\n'] = ended (head "Script Info".toList :: bodyOf (some usualStyle) (some usualEvent) (.info (properties title))) := by
  have e : "[Script Info]\nTitle: ".toList = head "Script Info".toList ++ ['\n'] ++ "Title: ".toList := by decide
  have e2 : "\nScriptType: v4.00+\nWrapStyle: 0\nScaledBorderAndShadow: yes\nPlayResX: 1920\nPlayResY: 1080".toList ++ ['\n'] =
      ['\n'] ++ ended (bodyOf (some usualStyle) (some usualEvent) (.info (properties title).tail)) := rfl
  unfold info
  rw [List.append_assoc, e2, e]
  simp only [ended, bodyOf, properties, List.map_cons, List.map_nil, List.flatMap_cons, List.flatMap_nil, List.tail_cons, List.append_assoc]
  rfl

theorem styles_lines (n : Nat) : stylesText n ++ ['\n'] = ended (head "V4+ Styles".toList :: (bodyOf (some usualStyle) (some usualEvent) (.styles ((List.range n).map styleOf)) ++ [[]])) := by
  have e : "[V4+ Styles]\n".toList ++ styleFormat = ended (head "V4+ Styles".toList :: fmtLines (some usualStyle)) := by decide +kernel
  have e2 : (List.range n).flatMap styleLine = ended ((List.range n).map fun i => (styleOf i).toAssWith usualStyle) := by
    rw [← Parser.maps_ended]
    congr 1
    funext i
    exact (style_line i).symm
  unfold stylesText
  rw [e, e2, ← List.cons_append, ended_append, bodyOf, ← List.cons_append, ended_append, List.map_map]
  rfl

theorem events_lines (g : Gen) : eventsText g = ended (head "Events".toList :: linesAt g) := by
  have e : "[Events]\n".toList ++ eventFormat = ended (head "Events".toList :: fmtLines (some usualEvent)) := by decide +kernel
  have e2 : (List.range g.events).flatMap (eventLine g) = ended ((List.range g.events).map fun i => (eventAt g i).toAssWith usualEvent ++ blank g.level i) := by
    rw [← Parser.maps_ended]
    congr 1
    funext i
    exact (eventAt_line g i).symm
  unfold eventsText linesAt
  rw [e, e2, ← List.cons_append, ended_append]

theorem generate_source (g : Gen) : generate g = source (properties g.title) ((List.range g.styles).map styleOf) (linesAt g) := by
  unfold generate source
  rw [title_lines, ended_append, ended_append, ← styles_lines, ← events_lines]
  simp only [List.append_assoc]

theorem lines_flat (g : Gen) : ∀ l ∈ linesAt g, '\n' ∉ l := by
  intro l hl
  rcases List.mem_append.1 hl with hl | hl
  · exact (Parser.fmt_line usual_event_ok.names l hl).1
  · obtain ⟨i, _, rfl⟩ := List.mem_map.1 hl
    have h1 := (Parser.event_line (eventAt_fits g i) usualEvent).1
    have h2 : '\n' ∉ blank g.level i := by
      unfold blank
      split <;> decide
    intro h
    rcases List.mem_append.1 h with h | h
    · exact h1 h
    · exact h2 h

/-- A title that stays one property. -/
def TitleOk (t : Str) : Prop := Trimmed t ∧ '\n' ∉ t

theorem properties_ok {t : Str} (h : TitleOk t) : ∀ f ∈ properties t, FieldOk f := by
  have tr : ∀ x : Str, Plain x → Trimmed x := fun x hx => hx.2
  have ok : ∀ a b : Str, (a.all calm && b.all calm && !a.contains ':' && a.head? != some ';' && a.head? != some '#' && a.head? != some '[') = true → FieldOk (a, b) := by
    intro a b hab
    simp only [Bool.and_eq_true, bne_iff_ne, ne_eq, Bool.not_eq_true', List.contains_eq_mem, decide_eq_false_iff_not] at hab
    obtain ⟨⟨⟨⟨⟨h1, h2⟩, h3⟩, h4⟩, h5⟩, h6⟩ := hab
    exact ⟨⟨(calm_fields h1).2.1, (calm_fields h2).2.1⟩, ⟨(calm_fields h1).1.2, (calm_fields h2).1.2⟩, h3, h4, h5, h6⟩
  simp only [properties, List.forall_mem_cons]
  have a1 : '\n' ∉ "Title".toList := by decide
  have a2 : ':' ∉ "Title".toList := by decide
  have a3 : "Title".toList.head? ≠ some ';' := by decide
  have a4 : "Title".toList.head? ≠ some '#' := by decide
  have a5 : "Title".toList.head? ≠ some '[' := by decide
  refine ⟨⟨⟨a1, h.2⟩, ⟨(calm_fields (d := "Title".toList) (by decide)).1.2, h.1⟩, a2, a3, a4, a5⟩, ?_, ?_, ?_, ?_, ?_, nofun⟩ <;>
    exact ok _ _ (by decide)

theorem generate_parsed {g : Gen} (ht : TitleOk g.title) (hsize : size (generate g) ≤ 50 * 1024 * 1024) :
    ∃ s, parse (generate g) = some s ∧ s.sections.map content =
      [.info (properties g.title), .styles ((List.range g.styles).map styleOf), .events ((List.range g.events).map (eventAt g))] ∧ unknowns s.issues = [] := by
  rw [generate_source] at hsize ⊢
  apply source_parsed (properties_ok ht) _ _ (lines_padded g) (lines_flat g) hsize
  · intro s hs
    obtain ⟨i, _, rfl⟩ := List.mem_map.1 hs
    exact styleOf_fits i
  · intro e he
    obtain ⟨i, _, rfl⟩ := List.mem_map.1 he
    exact eventAt_fits g i

/-! ## A script that can be parsed has times that fit -/

theorem generate_large (g : Gen) : 40 * g.events ≤ size (generate g) := by
  have h1 : ∀ i, 40 ≤ size (eventLine g i) := by
    intro i
    have h := length_le_byteLen (eventLine g i)
    show 40 ≤ byteLen _
    refine Nat.le_trans ?_ h
    have hp : ∀ n, 2 ≤ (showPad 2 n).length := by
      intro n; unfold showPad; rw [List.length_append, List.length_replicate]; omega
    have hn : ∀ n, 1 ≤ (showNat n).length := fun n => List.length_pos_iff.2 (showNat_ne_nil n)
    have hf : ∀ n, 10 ≤ (formatTime n).length := by
      intro n
      unfold formatTime
      simp only [List.length_append, List.length_cons]
      have := hp (n % 360000 / 6000); have := hp (n % 6000 / 100); have := hp (n % 100); have := hn (n / 360000)
      omega
    have e1 : "Dialogue: 0,".toList.length = 12 := by decide
    have e2 : ",Speaker,0,0,0,,".toList.length = 16 := by decide
    unfold eventLine
    simp only [List.length_append, List.length_cons, List.length_nil, e1, e2]
    have := hf (clip32 (i * 3000)); have := hf (clip32 (i * 3000 + 2500))
    omega
  have h2 : ∀ l : List Nat, 40 * l.length ≤ size (l.flatMap (eventLine g)) := by
    intro l
    induction l with
    | nil => simp
    | cons i l ih =>
      rw [List.flatMap_cons]
      have := Verif.byteLen_append (eventLine g i) (l.flatMap (eventLine g))
      have := h1 i
      show 40 * (l.length + 1) ≤ byteLen _
      have e : size (eventLine g i) = byteLen (eventLine g i) := rfl
      have e' : size (l.flatMap (eventLine g)) = byteLen (l.flatMap (eventLine g)) := rfl
      omega
  have h3 := h2 (List.range g.events)
  rw [List.length_range] at h3
  unfold generate eventsText
  show _ ≤ byteLen _
  simp only [byteLen_append]
  have e' : size ((List.range g.events).flatMap (eventLine g)) = byteLen ((List.range g.events).flatMap (eventLine g)) := rfl
  omega

theorem formatTime_eq (n : Nat) : formatTime n = Time.formatAssTime n := by
  have : n % 6000 = n % 360000 % 6000 := by omega
  have h2 : n % 100 = n % 360000 % 6000 % 100 := by omega
  unfold formatTime Time.formatAssTime
  simp only [this, h2]

theorem formatTime_text {n : Nat} (h : n < 2 ^ 32) : Spec.TimeText (formatTime (clip32 n)) n := by
  have e : clip32 n = n := by unfold clip32; rw [if_pos h]
  rw [e, formatTime_eq]
  exact ((Props.C02_parse_accepts_iff _ _).1 (Props.C01_time_roundtrip n h)).1

theorem minuteTime_eq {s k : Nat} (h : s < 3600) (hk : k < 100) : minuteTime s ('.' :: showPad 2 k) = Time.formatAssTime (100 * s + k) := by
  have e0 : (100 * s + k) / 360000 = 0 := by omega
  have e1 : (100 * s + k) % 360000 = 100 * s + k := by omega
  have e2 : (100 * s + k) / 6000 = s / 60 := by omega
  have e3 : (100 * s + k) % 6000 / 100 = s % 60 := by omega
  have e4 : (100 * s + k) % 6000 % 100 = k := by omega
  have z : "0:".toList = showNat 0 ++ [':'] := by decide
  unfold minuteTime Time.formatAssTime
  simp only [e0, e1, e2, e3, e4, z, List.append_assoc, List.cons_append, List.nil_append]

theorem minuteTime_text {s k : Nat} {f : Str} (h : s < 3600) (hk : k < 100) (hf : f = '.' :: showPad 2 k) : Spec.TimeText (minuteTime s f) (100 * s + k) := by
  rw [hf, minuteTime_eq h hk]
  exact ((Props.C02_parse_accepts_iff _ _).1 (Props.C01_time_roundtrip _ (by omega))).1

/-! ## The two other scripts -/

def zero : Span := ⟨0, 0, 0, 0⟩

def scriptOf (pre : List Section) (st : Style) (ev : List Event) : Script :=
  { version := .ass4plus, issues := [], stylesFmt := some usualStyle, eventsFmt := some usualEvent,
    sections := pre ++ [.styles [(st, zero)], .events (ev.map (·, zero))] }

theorem events_flat (ev : List Event) : (ev.map (·, zero)).flatMap (fun e => e.1.toAssWith usualEvent ++ ['\n']) = ev.flatMap fun e => e.toAssWith usualEvent ++ ['\n'] := by
  induction ev with
  | nil => rfl
  | cons x l ih => simp only [List.map_cons, List.flatMap_cons, ih]

theorem toAss_none (st : Style) (ev : List Event) : Parser.toAss (scriptOf [] st ev) = Parser.sectionToAss (some usualStyle) (some usualEvent) (.styles [(st, zero)]) ++ ['\n'] ++
    ("[Events]\n".toList ++ Parser.formatToAss (some usualEvent) ++ ev.flatMap fun e => e.toAssWith usualEvent ++ ['\n']) := by
  rw [← events_flat]
  rfl

theorem toAss_info (fields : List (Str × Str)) (st : Style) (ev : List Event) : Parser.toAss (scriptOf [.info fields zero] st ev) = Parser.infoToAss fields ++ ['\n'] ++
    (Parser.sectionToAss (some usualStyle) (some usualEvent) (.styles [(st, zero)]) ++ ['\n'] ++
    ("[Events]\n".toList ++ Parser.formatToAss (some usualEvent) ++ ev.flatMap fun e => e.toAssWith usualEvent ++ ['\n'])) := by
  rw [← events_flat]
  rfl

theorem other_parsed {pre : List Section} {st : Style} {ev : List Event} (hpre : ∀ x ∈ pre, Writable (some usualStyle) (some usualEvent) (content x))
    (hst : StyleFits usualStyle st) (hev : ∀ e ∈ ev, EventFits usualEvent e) (hsize : size (Parser.toAss (scriptOf pre st ev)) ≤ 50 * 1024 * 1024) :
    ∃ s, parse (Parser.toAss (scriptOf pre st ev)) = some s ∧ s.sections.map content = pre.map content ++ [.styles [st], .events ev] ∧ unknowns s.issues = [] := by
  have hw : ∀ y ∈ (scriptOf pre st ev).sections, Writable (scriptOf pre st ev).stylesFmt (scriptOf pre st ev).eventsFmt (content y) := by
    intro y hy
    rcases List.mem_append.1 hy with hy | hy
    · exact hpre y hy
    · simp only [List.mem_cons, List.not_mem_nil, or_false] at hy
      rcases hy with rfl | rfl
      · refine ⟨fun f hf => by cases hf; exact Parser.usual_style_ok, fun s hs => ?_⟩
        simp at hs; subst hs; exact hst
      · refine ⟨fun f hf => by cases hf; exact Parser.usual_event_ok, fun e he => ?_⟩
        simp [zero] at he
        exact hev e he
  obtain ⟨s, h1, h2, h3, _⟩ := Parser.C75_round_trip_partial hw hsize
  refine ⟨s, h1, ?_, h3⟩
  rw [h2]
  have e : ev.map (Prod.fst ∘ fun x => (x, zero)) = ev := by
    rw [show (Prod.fst ∘ fun x : Event => (x, zero)) = id from rfl, List.map_id]
  simp [scriptOf, content, e]

def issueStyle : Style :=
  { styleOf 0 with fontsize := "20".toList, primary := "&H00FFFFFF&".toList, secondary := "&H000000FF&".toList, outlineColour := "&H00000000&".toList }

def overlapStyle : Style :=
  { styleOf 0 with fontsize := "20".toList, primary := "&H00FFFFFF".toList, secondary := "&H000000FF".toList, outlineColour := "&H00000000".toList, back := "&H80000000".toList, shadow := ['2'] }

theorem issueStyle_fits : StyleFits usualStyle issueStyle := by
  apply style_fits _ rfl rfl rfl rfl
  simp only [styleFields, List.forall_mem_cons]
  refine ⟨?_, ?_, ?_, ?_, ?_, ?_, ?_, ?_, ?_, ?_, ?_, ?_, ?_, ?_, ?_, ?_, ?_, ?_, ?_, ?_, ?_, ?_, ?_, nofun⟩ <;> decide

theorem overlapStyle_fits : StyleFits usualStyle overlapStyle := by
  apply style_fits _ rfl rfl rfl rfl
  simp only [styleFields, List.forall_mem_cons]
  refine ⟨?_, ?_, ?_, ?_, ?_, ?_, ?_, ?_, ?_, ?_, ?_, ?_, ?_, ?_, ?_, ?_, ?_, ?_, ?_, ?_, ?_, ?_, ?_, nofun⟩ <;> decide

def issueEvent (i : Nat) : Event := eventOf (minuteTime i ".00".toList) (minuteTime i ".50".toList) "Default".toList "Speaker".toList (issueText i)

def overlapEvent (i : Nat) : Event :=
  eventOf (minuteTime (i * 2) ".00".toList) (minuteTime (i * 2 + 5) ".00".toList) "Default".toList [] ("Event ".toList ++ showNat i ++ " text".toList)

theorem trimmed_number {x : Str} (n : Nat) (h : x.head?.any (fun c => !isWs c) = true) : Trimmed (x ++ showNat n) := by
  have := edge_number (x := []) (p := x) n (by rw [List.nil_append]; exact h)
  simpa using this

theorem trimmed_of {s : Str} (h : ((s.head?.all (fun c => !isWs c)) && (s.getLast?.all (fun c => !isWs c))) = true) : Trimmed s := by
  rw [Bool.and_eq_true] at h
  refine ⟨fun c hc hw => ?_, fun c hc hw => ?_⟩
  · have := h.1
    rw [hc] at this
    simp [(SrtDoc.white_iff c).2 hw] at this
  · have := h.2
    rw [hc] at this
    simp [(SrtDoc.white_iff c).2 hw] at this

set_option maxRecDepth 20000 in
theorem issue_text (i : Nat) : Trimmed (issueText i) ∧ '\n' ∉ issueText i := by
  unfold issueText
  split
  · exact ⟨trimmed_of (by decide), by decide⟩
  · split
    · exact ⟨trimmed_of (by decide), by decide⟩
    · refine ⟨trimmed_number _ (by decide), fun h => ?_⟩
      rcases List.mem_append.1 h with h | h
      · exact absurd h (by decide)
      · exact absurd (List.all_eq_true.1 (showNat_clear _) _ h) (by decide)

theorem issueEvent_fits (i : Nat) : EventFits usualEvent (issueEvent i) :=
  event_fits (minuteTime_calm _ (by decide)) (minuteTime_calm _ (by decide)) (by decide) (by decide) (issue_text i).1 (issue_text i).2

theorem overlapEvent_fits (i : Nat) : EventFits usualEvent (overlapEvent i) := by
  refine event_fits (minuteTime_calm _ (by decide)) (minuteTime_calm _ (by decide)) (by decide) (by decide) ?_ ?_
  · exact trimmed_edges _ (by decide)
  · intro h
    rcases List.mem_append.1 h with h | h
    · rcases List.mem_append.1 h with h | h
      · exact absurd h (by decide)
      · exact absurd (List.all_eq_true.1 (showNat_clear _) _ h) (by decide)
    · exact absurd h (by decide)

theorem withIssues_eq (n : Nat) : withIssues n = Parser.toAss (scriptOf [.info [("Title".toList, "Test Script".toList)] zero] issueStyle ((List.range n).map issueEvent)) := by
  have e : "[Script Info]\nTitle: Test Script\n\n[V4+ Styles]\n".toList ++ styleFormat ++
    "Style: Default,Arial,20,&H00FFFFFF&,&H000000FF&,&H00000000&,&H00000000&,0,0,0,0,100,100,0,0,1,2,0,2,10,10,10,1\n\n[Events]\n".toList ++ eventFormat =
    Parser.infoToAss [("Title".toList, "Test Script".toList)] ++ ['\n'] ++
    (Parser.sectionToAss (some usualStyle) (some usualEvent) (.styles [(issueStyle, zero)]) ++ ['\n'] ++
    ("[Events]\n".toList ++ Parser.formatToAss (some usualEvent))) := by decide +kernel
  rw [toAss_info]
  unfold withIssues
  rw [e]
  have e2 : ((List.range n).map issueEvent).flatMap (fun e => e.toAssWith usualEvent ++ ['\n']) = (List.range n).flatMap fun i =>
      "Dialogue: 0,".toList ++ minuteTime i ".00".toList ++ [','] ++ minuteTime i ".50".toList ++ ",Default,Speaker,0,0,0,,".toList ++
        issueText i ++ ['\n'] := by
    rw [List.flatMap_map]
    congr 1
    funext i
    have e3 : ",Default,Speaker,0,0,0,,".toList = [','] ++ "Default".toList ++ [','] ++ "Speaker".toList ++ ",0,0,0,,".toList := by decide
    unfold issueEvent
    rw [event_line, e3]
    simp only [List.append_assoc]
  rw [e2]
  simp only [List.append_assoc]

theorem overlapping_eq (n : Nat) : overlapping n = Parser.toAss (scriptOf [] overlapStyle ((List.range n).map overlapEvent)) := by
  have e : "[V4+ Styles]\n".toList ++ styleFormat ++
    "Style: Default,Arial,20,&H00FFFFFF,&H000000FF,&H00000000,&H80000000,0,0,0,0,100,100,0,0,1,2,2,2,10,10,10,1\n\n[Events]\n".toList ++ eventFormat =
    Parser.sectionToAss (some usualStyle) (some usualEvent) (.styles [(overlapStyle, zero)]) ++ ['\n'] ++
    ("[Events]\n".toList ++ Parser.formatToAss (some usualEvent)) := by decide +kernel
  rw [toAss_none]
  unfold overlapping
  rw [e]
  have e2 : ((List.range n).map overlapEvent).flatMap (fun e => e.toAssWith usualEvent ++ ['\n']) = (List.range n).flatMap fun i =>
      "Dialogue: 0,".toList ++ minuteTime (i * 2) ".00".toList ++ [','] ++ minuteTime (i * 2 + 5) ".00".toList ++ ",Default,,0,0,0,,Event ".toList ++
        showNat i ++ " text\n".toList := by
    rw [List.flatMap_map]
    congr 1
    funext i
    have e3 : ",Default,,0,0,0,,Event ".toList = [','] ++ "Default".toList ++ [','] ++ [] ++ ",0,0,0,,".toList ++ "Event ".toList := by decide
    have e4 : " text\n".toList = " text".toList ++ ['\n'] := by decide
    unfold overlapEvent
    rw [event_line, e3, e4]
    simp only [List.append_assoc]
  rw [e2]
  simp only [List.append_assoc]

end Verif.Generators
