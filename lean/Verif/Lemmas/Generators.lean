import Verif.Model.Generators
import Verif.Spec.Generators
import Verif.Props.RoundTrip
import Verif.Lemmas.RoundTrip
import Verif.Lemmas.Handlers
import Verif.Lemmas.Builders
import Verif.Lemmas.FormatDoc
/-!
# Lemmas about generated scripts
-/
namespace Verif.Generators
open Verif Verif.Ast
open Verif.Parser (ended ended_append ended_unlines bodyOf fmtLines strip sections_back bodyOf_line usual_style_ok usual_event_ok rawOf strip_said Section Script Span parse raw_line nil_not_opens)
open Verif.Spec.EventCmd (White Trimmed Plain)
open Verif.Spec.InfoCmd (Stripped)
open Verif.Spec.Script
open Verif.Spec.RoundTrip

/-! ## Lines with blanks behind them -/

theorem silent_pad {a w : Str} (hw : ∀ c ∈ w, White c) : Silent (a ++ w) ↔ Silent a := by
  constructor
  · rintro (h | ⟨p, c, r, e, hp, hc⟩)
    · exact .inl fun x hx => h x (by simp [hx])
    · rcases List.append_eq_append_iff.1 e with ⟨q, e1, e2⟩ | ⟨q, e1, e2⟩
      · exfalso
        have : c ∈ w := by rw [e2]; simp
        have := hw c this
        rcases hc with rfl | rfl <;> exact absurd ((SrtDoc.white_iff _).2 this) (by decide)
      · cases q with
        | nil =>
          exfalso
          have : c ∈ w := by
            rw [List.nil_append] at e2; rw [← e2]; simp
          have := hw c this
          rcases hc with rfl | rfl <;> exact absurd ((SrtDoc.white_iff _).2 this) (by decide)
        | cons x q =>
          rw [List.cons_append] at e2
          obtain ⟨rfl, _⟩ := List.cons.inj e2
          exact .inr ⟨p, c, q, e1, hp, hc⟩
  · rintro (h | ⟨p, c, r, e, hp, hc⟩)
    · exact .inl fun x hx => by
        rcases List.mem_append.1 hx with hx | hx
        · exact h x hx
        · exact hw x hx
    · exact .inr ⟨p, c, r ++ w, by rw [e]; simp, hp, hc⟩

theorem trim_right {a w : Str} (hw : ∀ c ∈ w, White c) : trim (a ++ w) = trim a := by
  obtain ⟨⟨h1, h2⟩, p, q, e, hp, hq⟩ := InfoCmd.stripped_trim a
  apply Handlers.stripped_eq
  refine ⟨⟨h1, h2⟩, p, q ++ w, ?_, hp, ?_⟩
  · rw [← List.append_assoc, ← e]
  · intro c hc
    rcases List.mem_append.1 hc with hc | hc
    · exact hq c hc
    · exact hw c hc

theorem says_pad {a w x : Str} (hw : ∀ c ∈ w, White c) (h : Says (a ++ w) x) : Says a x := by
  refine ⟨fun hs => h.1 ((silent_pad hw).2 hs), ?_⟩
  have := Handlers.stripped_eq h.2
  rw [trim_right hw] at this
  rw [← this]
  exact InfoCmd.stripped_trim a

theorem spans_some (o : Nat) (l : Str) : ∃ a b, Spans o l a b := by
  let p : Char → Bool := fun c => c == ' ' || c == '\t' || c == '\r'
  refine ⟨_, _, l.takeWhile p, l.dropWhile p, List.takeWhile_append_dropWhile.symm, ?_, ?_, rfl, rfl⟩
  · intro c hc
    have := List.all_takeWhile (p := p) (l := l)
    rw [List.all_eq_true] at this
    have := this c hc
    simp [p] at this
    rcases this with (h | h) | h
    · exact .inl h
    · exact .inr (.inl h)
    · exact .inr (.inr h)
  · intro c hc hs
    have := List.head?_dropWhile_not p l
    rw [hc] at this
    simp only at this
    rcases hs with rfl | rfl | rfl <;> simp [p] at this

/-- Each line of the second list is one of the first with blanks behind it. -/
inductive Padded : List Str → List Str → Prop
  | nil : Padded [] []
  | cons {a w l m} : (∀ c ∈ w, White c) → Padded l m → Padded (a :: l) ((a ++ w) :: m)

theorem padded_refl : ∀ l : List Str, Padded l l
  | [] => .nil
  | a :: l => by
    have := Padded.cons (a := a) (w := []) (by simp) (padded_refl l)
    simpa using this

theorem padded_append {l m l' m' : List Str} (h : Padded l m) (h' : Padded l' m') : Padded (l ++ l') (m ++ m') := by
  induction h with
  | nil => exact h'
  | cons h1 _ ih => exact .cons h1 ih

theorem events_pad {L M : List Str} (hp : Padded L M) : ∀ {f : Option (List Str)} {o o' : Nat} {es : List (Event × Nat × Nat)} {f' : Option (List Str)},
    EventsOf f o M es f' → ∃ es', EventsOf f o' L es' f' ∧ es'.map Prod.fst = es.map Prod.fst := by
  induction hp with
  | nil =>
    intro f o o' es f' h
    cases h
    exact ⟨[], .nil, rfl⟩
  | @cons a w l m hw _ ih =>
    intro f o o' es f' h
    cases h with
    | silent h1 h2 =>
      obtain ⟨es', h3, h4⟩ := ih h2
      exact ⟨es', .silent ((silent_pad hw).1 h1) h3, h4⟩
    | format h1 h2 h3 =>
      obtain ⟨es', h4, h5⟩ := ih h3
      exact ⟨es', .format (says_pad hw h1) h2 h4, h5⟩
    | event h1 h2 h3 h4 =>
      obtain ⟨es', h5, h6⟩ := ih h4
      obtain ⟨p, q, hs⟩ := spans_some o' a
      exact ⟨_, .event (says_pad hw h1) h2 hs h5, by rw [List.map_cons, List.map_cons, h6]⟩
    | other h1 h2 h3 h4 =>
      obtain ⟨es', h5, h6⟩ := ih h4
      exact ⟨es', .other (says_pad hw h1) h2 h3 h5, h6⟩

theorem info_pad {L : List Str} {fs : List (Str × Str)} (h : InfoOf L fs) : InfoOf (L ++ [[]]) fs := by
  induction h with
  | nil => exact .silent (.inl (by simp)) .nil
  | silent h1 _ ih => exact .silent h1 ih
  | field h1 h2 h3 h4 _ ih => exact .field h1 h2 h3 h4 ih
  | other h1 h2 _ ih => exact .other h1 h2 ih

theorem sections_info_pad {s0 e0 sf ef : Option (List Str)} {g : Seg} {gs : List Seg} {ss : List Said} {us : List Str}
    (hr : g.raw = "Script Info".toList) (h : SectionsOf s0 e0 (g :: gs) ss sf ef us) :
    SectionsOf s0 e0 (⟨g.raw, g.at_, g.body ++ [[]]⟩ :: gs) ss sf ef us := by
  have uniq : ∀ {n}, Stripped g.raw n → n = "Script Info".toList := by
    intro n hn
    rw [← Handlers.stripped_eq hn, hr]; decide
  cases h with
  | info h1 h2 h3 => exact .info (g := ⟨g.raw, g.at_, g.body ++ [[]]⟩) h1 (info_pad h2) h3
  | styles h1 h2 _ _ => rw [uniq h1] at h2; exact absurd h2 (by unfold StylesName; decide)
  | events h1 _ _ => exact absurd (uniq h1) (by decide)
  | fonts h1 _ _ => exact absurd (uniq h1) (by decide)
  | graphics h1 _ _ => exact absurd (uniq h1) (by decide)
  | unknown h1 h2 _ => rw [uniq h1] at h2; exact absurd (by unfold Known StylesName; decide) h2

theorem sections_events_pad {a : Nat} {L M : List Str} (hp : Padded L M) : ∀ {pre : List Seg} {s0 e0 sf ef : Option (List Str)}
    {ss : List Said} {us : List Str}, SectionsOf s0 e0 (pre ++ [⟨"Events".toList, a, M⟩]) ss sf ef us →
    ∃ ss', SectionsOf s0 e0 (pre ++ [⟨"Events".toList, a, L⟩]) ss' sf ef us ∧ ss'.map strip = ss.map strip
  | [], s0, e0, sf, ef, ss, us, h => by
    have uniq : ∀ {n}, Stripped "Events".toList n → n = "Events".toList := by
      intro n hn
      rw [← Handlers.stripped_eq hn]; decide
    cases h with
    | info h1 _ _ => exact absurd (uniq h1) (by decide)
    | styles h1 h2 _ _ => rw [uniq h1] at h2; exact absurd h2 (by unfold StylesName; decide)
    | events h1 h2 h3 =>
      obtain ⟨es', h4, h5⟩ := events_pad hp (o' := a) h2
      refine ⟨_, .events (g := ⟨"Events".toList, a, L⟩) h1 h4 h3, ?_⟩
      rw [List.map_cons, List.map_cons, strip, strip, h5]
    | fonts h1 _ _ => exact absurd (uniq h1) (by decide)
    | graphics h1 _ _ => exact absurd (uniq h1) (by decide)
    | unknown h1 h2 _ => rw [uniq h1] at h2; exact absurd (by unfold Known StylesName; decide) h2
  | g :: pre, s0, e0, sf, ef, ss, us, h => by
    cases h with
    | info h1 h2 h3 =>
      obtain ⟨ss', h4, h5⟩ := sections_events_pad hp h3
      exact ⟨_, .info h1 h2 h4, by rw [List.map_cons, List.map_cons, h5]⟩
    | styles h1 h2 h3 h4 =>
      obtain ⟨ss', h5, h6⟩ := sections_events_pad hp h4
      exact ⟨_, .styles h1 h2 h3 h5, by rw [List.map_cons, List.map_cons, h6]⟩
    | events h1 h2 h3 =>
      obtain ⟨ss', h4, h5⟩ := sections_events_pad hp h3
      exact ⟨_, .events h1 h2 h4, by rw [List.map_cons, List.map_cons, h5]⟩
    | fonts h1 h2 h3 =>
      obtain ⟨ss', h4, h5⟩ := sections_events_pad hp h3
      exact ⟨_, .fonts h1 h2 h4, by rw [List.map_cons, List.map_cons, h5]⟩
    | graphics h1 h2 h3 =>
      obtain ⟨ss', h4, h5⟩ := sections_events_pad hp h3
      exact ⟨_, .graphics h1 h2 h4, by rw [List.map_cons, List.map_cons, h5]⟩
    | unknown h1 h2 h3 =>
      obtain ⟨ss', h4, h5⟩ := sections_events_pad hp h3
      exact ⟨_, .unknown h1 h2 h4, h5⟩

/-! ## The sections of a source without a blank line after the properties -/

def head (n : Str) : Str := '[' :: n ++ [']']

theorem head_info : Header (head "Script Info".toList) "Script Info".toList := ⟨[], [], by decide, by simp, by decide⟩
theorem head_styles : Header (head "V4+ Styles".toList) "V4+ Styles".toList := ⟨[], [], by decide, by simp, by decide⟩
theorem head_events : Header (head "Events".toList) "Events".toList := ⟨[], [], by decide, by simp, by decide⟩

theorem opens_pad {a w : Str} (h : ¬ Opens a) (hw : ∀ c ∈ w, White c) : ¬ Opens (a ++ w) := by
  rintro ⟨p, r, e, hp⟩
  rcases List.append_eq_append_iff.1 e with ⟨q, e1, e2⟩ | ⟨q, e1, e2⟩
  · have : '[' ∈ w := by rw [e2]; simp
    exact absurd ((SrtDoc.white_iff _).2 (hw _ this)) (by decide)
  · cases q with
    | nil =>
      have : '[' ∈ w := by rw [List.nil_append] at e2; rw [← e2]; simp
      exact absurd ((SrtDoc.white_iff _).2 (hw _ this)) (by decide)
    | cons x q =>
      rw [List.cons_append] at e2
      obtain ⟨rfl, _⟩ := List.cons.inj e2
      exact h ⟨p, q, e1, hp⟩

theorem padded_opens {L M : List Str} (hp : Padded L M) (h : ∀ l ∈ L, ¬ Opens l) : ∀ l ∈ M, ¬ Opens l := by
  induction hp with
  | nil => simp
  | cons hw _ ih =>
    intro l hl
    rcases List.mem_cons.1 hl with rfl | hl
    · exact opens_pad (h _ (by simp)) hw
    · exact ih (fun x hx => h x (by simp [hx])) l hl

/-- The source of a script with these properties, styles and lines of events. -/
def source (fields : List (Str × Str)) (st : List Style) (M : List Str) : Str :=
  ended (head "Script Info".toList :: bodyOf (some usualStyle) (some usualEvent) (.info fields) ++
    (head "V4+ Styles".toList :: (bodyOf (some usualStyle) (some usualEvent) (.styles st) ++ [[]]) ++ (head "Events".toList :: M)))

theorem source_parsed {fields : List (Str × Str)} {st : List Style} {ev : List Event} {M : List Str}
    (hf : ∀ f ∈ fields, FieldOk f) (hs : ∀ s ∈ st, StyleFits usualStyle s) (he : ∀ e ∈ ev, EventFits usualEvent e)
    (hp : Padded (bodyOf (some usualStyle) (some usualEvent) (.events ev)) M) (hn : ∀ l ∈ M, '\n' ∉ l)
    (hsize : size (source fields st M) ≤ 50 * 1024 * 1024) :
    ∃ s, parse (source fields st M) = some s ∧ s.sections.map content = [.info fields, .styles st, .events ev] ∧
      unknowns s.issues = [] := by
  let z : Span := ⟨0, 0, 0, 0⟩
  let secs : List Section := [.info fields z, .styles (st.map fun s => (s, z)), .events (ev.map fun e => (e, z))]
  have c1 : content (.info fields z) = .info fields := rfl
  have c2 : content (.styles (st.map fun s => (s, z))) = .styles st := by simp [content, Function.comp_def]
  have c3 : content (.events (ev.map fun e => (e, z))) = .events ev := by simp [content, Function.comp_def]
  have w1 : Writable (some usualStyle) (some usualEvent) (.info fields) := hf
  have w2 : Writable (some usualStyle) (some usualEvent) (.styles st) := ⟨fun f hf => by cases hf; exact usual_style_ok, hs⟩
  have w3 : Writable (some usualStyle) (some usualEvent) (.events ev) := ⟨fun f hf => by cases hf; exact usual_event_ok, he⟩
  have hw : ∀ s ∈ secs, Writable (some usualStyle) (some usualEvent) (content s) := by
    simp only [secs, List.forall_mem_cons, c1, c2, c3]
    exact ⟨w1, w2, w3, nofun⟩
  have b1 := bodyOf_line w1
  have b2 := bodyOf_line w2
  have b3 := bodyOf_line w3
  generalize hB1 : bodyOf (some usualStyle) (some usualEvent) (.info fields) = B1 at b1
  generalize hB2 : bodyOf (some usualStyle) (some usualEvent) (.styles st) = B2 at b2
  generalize hB3 : bodyOf (some usualStyle) (some usualEvent) (.events ev) = B3 at b3 hp
  have hsrc : source fields st M = unlines (head "Script Info".toList :: (B1 ++ (head "V4+ Styles".toList :: ((B2 ++ [[]]) ++ (head "Events".toList :: ((M ++ [[]]) ++ [])))))) := by
    unfold source
    rw [hB1, hB2, ended_unlines]
    congr 1
    simp
  have o3 : ∀ l ∈ M ++ [[]], ¬ Opens l := by
    intro l hl
    rcases List.mem_append.1 hl with hl | hl
    · exact padded_opens hp (fun x hx => (b3 x hx).2) l hl
    · rw [List.mem_singleton.1 hl]; exact nil_not_opens
  have o2 : ∀ l ∈ B2 ++ [[]], ¬ Opens l := by
    intro l hl
    rcases List.mem_append.1 hl with hl | hl
    · exact (b2 l hl).2
    · rw [List.mem_singleton.1 hl]; exact nil_not_opens
  obtain ⟨a1, a2, a3, hseg⟩ : ∃ a1 a2 a3, Segments 0 (head "Script Info".toList :: (B1 ++ (head "V4+ Styles".toList :: ((B2 ++ [[]]) ++ (head "Events".toList :: ((M ++ [[]]) ++ []))))))
      [⟨"Script Info".toList, a1, B1⟩, ⟨"V4+ Styles".toList, a2, B2 ++ [[]]⟩, ⟨"Events".toList, a3, M ++ [[]]⟩] :=
    ⟨_, _, _, .cons head_info (fun l hl => (b1 l hl).2) (.cons head_styles o2 (.cons head_events o3 (.nil _)))⟩
  have hd : Document (source fields st M) [⟨"Script Info".toList, a1, B1⟩, ⟨"V4+ Styles".toList, a2, B2 ++ [[]]⟩, ⟨"Events".toList, a3, M ++ [[]]⟩] := by
    refine ⟨[], [], source fields st M, _, rfl, .inr ⟨rfl, ?_⟩, by rw [hsrc]; rfl, ?_, by simp, hseg⟩
    · rw [hsrc, Parser.unlines_cons (by simp)]
      intro h
      exact absurd (Option.some.inj h) (by decide)
    · have n1 : '\n' ∉ head "Script Info".toList := by decide
      have n2 : '\n' ∉ head "V4+ Styles".toList := by decide
      have n3 : '\n' ∉ head "Events".toList := by decide
      intro l hl
      simp only [List.nil_append, List.append_nil, List.mem_cons, List.mem_append, List.not_mem_nil, or_false] at hl
      rcases hl with rfl | hl | rfl | (hl | rfl) | rfl | hl | rfl
      · exact n1
      · exact (b1 l hl).1
      · exact n2
      · exact (b2 l hl).1
      · simp
      · exact n3
      · exact hn l hl
      · simp
  obtain ⟨s, ss, us, g1, g2, g3, g4⟩ := C09_sections_partial hsize hd
  have g2 := sections_info_pad rfl g2
  obtain ⟨ss', g5, g6⟩ := sections_events_pad (padded_append hp (padded_refl [[]]))
    (pre := [⟨"Script Info".toList, a1, B1 ++ [[]]⟩, ⟨"V4+ Styles".toList, a2, B2 ++ [[]]⟩]) g2
  obtain ⟨i1, i2, _, _⟩ := sections_back (l := secs) hw (by
    simp only [secs, List.map_cons, List.map_nil, c1, c2, c3, hB1, hB2, hB3, List.cons_append, List.nil_append]
    rfl) g5
  refine ⟨s, g1, ?_, by rw [g4, i2]⟩
  have : s.sections.map content = ss.map strip := by
    rw [← g3, List.map_map]
    exact List.map_congr_left (fun x _ => (strip_said x).symm)
  rw [this, ← g6, i1]
  simp only [secs, List.map_cons, List.map_nil, c1, c2, c3]


/-! ## Styles and events -/

/-- Characters that may stand anywhere in a field. -/
def calm (c : Char) : Bool := !isWs c && c != ',' && c != '\n' && c != '*' && c != '{' && c != '\\'

theorem calm_fields {d : Str} (h : d.all calm = true) : Plain d ∧ '\n' ∉ d ∧ d.head? ≠ some '*' := by
  rw [List.all_eq_true] at h
  have no : ∀ x, calm x = false → x ∉ d := fun x hx hc => by have := h x hc; rw [hx] at this; cases this
  have nw : ∀ c ∈ d, ¬ White c := by
    intro c hc hw
    have := h c hc
    unfold calm at this
    rw [(SrtDoc.white_iff c).2 hw] at this
    simp at this
  exact ⟨⟨no ',' (by decide), fun c hc => nw c (List.mem_of_mem_head? hc), fun c hc => nw c (List.mem_of_getLast? hc)⟩,
    no '\n' (by decide), fun hc => no '*' (by decide) (List.mem_of_mem_head? hc)⟩

theorem digits_calm {b : Nat} (hb : 1 < b) (h16 : b ≤ 16) : ∀ n, ((Nat.toDigits b n).map Char.toUpper).all calm = true ∧ (Nat.toDigits b n).all calm = true := by
  have key : ∀ k, k < 16 → calm (Nat.digitChar k) = true ∧ calm (Nat.digitChar k).toUpper = true := by decide
  intro n
  induction n using Nat.strongRecOn with
  | _ n ih =>
    by_cases h : n < b
    · rw [Nat.toDigits_of_lt_base h]
      have := key n (by omega)
      simp [this.1, this.2]
    · rw [Nat.toDigits_of_base_le hb (by omega)]
      have h1 := ih (n / b) (Nat.div_lt_self (by omega) hb)
      have h2 := key (n % b) (by have := Nat.mod_lt n (show b > 0 by omega); omega)
      rw [List.map_append, List.all_append, List.all_append, h1.1, h1.2]
      simp [h2.1, h2.2]

theorem showNat_calm (n : Nat) : (showNat n).all calm = true := (digits_calm (by decide) (by decide) n).2

theorem showPad_calm (w n : Nat) : (showPad w n).all calm = true := by
  unfold showPad
  rw [List.all_append, showNat_calm, Bool.and_true, List.all_eq_true]
  intro c hc
  rw [List.eq_of_mem_replicate hc]; decide

theorem hex6_calm (n : Nat) : (hex6 n).all calm = true := by
  unfold hex6
  simp only []
  rw [List.all_append, (digits_calm (by decide) (by decide) n).1, Bool.and_true, List.all_eq_true]
  intro c hc
  rw [List.eq_of_mem_replicate hc]; decide

theorem colour_calm (i : Nat) : (colour i).all calm = true := by
  unfold colour
  rw [List.all_append, List.all_append, hex6_calm]; decide

theorem styleName_calm (i : Nat) : (styleName i).all calm = true := by
  unfold styleName
  split
  · decide
  · rw [List.all_append, showNat_calm]; decide

theorem minuteTime_calm {f : Str} (s : Nat) (h : f.all calm = true) : (minuteTime s f).all calm = true := by
  unfold minuteTime
  rw [List.all_append, List.all_append, List.all_append, List.all_append, showPad_calm, showPad_calm, h]; decide

theorem formatTime_calm (n : Nat) : (formatTime n).all calm = true := by
  unfold formatTime
  rw [List.all_append, List.all_append, List.all_append, List.all_cons, List.all_cons, List.all_cons, showNat_calm, showPad_calm, showPad_calm, showPad_calm]; decide

open Verif.Spec.Lines

/-- A style of generated scripts. -/
def styleOf (i : Nat) : Style :=
  { name := styleName i, fontname := "Arial".toList, fontsize := showNat (20 + i * 2), primary := colour i, secondary := colour i,
    outlineColour := colour i, back := "&H00000000&".toList, bold := ['0'], italic := ['0'], underline := ['0'], strikeout := ['0'],
    scaleX := "100".toList, scaleY := "100".toList, spacing := ['0'], angle := ['0'], borderStyle := ['1'], outline := ['2'], shadow := ['0'],
    alignment := ['2'], marginL := "10".toList, marginR := "10".toList, marginV := "10".toList, encoding := ['1'],
    marginT := none, marginB := none, relativeTo := none, parent := none }

theorem style_fits {s : Style} (h : ∀ x ∈ styleFields, (x.2 s).all calm = true) (h1 : s.marginT = none) (h2 : s.marginB = none)
    (h3 : s.relativeTo = none) (h4 : s.parent = none) : StyleFits usualStyle s := by
  have ho : ∀ x ∈ styleOptions, x.2 s = none := by
    simp only [styleOptions, List.forall_mem_cons]
    exact ⟨h1, h2, h3, nofun⟩
  refine ⟨⟨fun x hx => (calm_fields (h x hx)).1, ?_⟩, ⟨fun x hx => (calm_fields (h x hx)).2.1, ?_⟩, ⟨fun x hx => (calm_fields (h x hx)).2.2, ?_⟩, h4, ?_, ?_⟩
  · intro x hx v hv; rw [ho x hx] at hv; cases hv
  · intro x hx v hv; rw [ho x hx] at hv; cases hv
  · intro x hx v hv; rw [ho x hx] at hv; cases hv
  · intro y hy h
    exact absurd ⟨y.1, List.mem_map.2 ⟨y, hy, rfl⟩, rfl⟩ h
  · have : ∀ y ∈ styleOptions, ¬ Has usualStyle y.1 := by
      simp only [styleOptions, List.forall_mem_cons]
      unfold Has SameName
      refine ⟨by decide, by decide, by decide, nofun⟩
    intro y hy
    rw [ho y hy]
    exact ⟨fun h => absurd h (by decide), fun h => absurd h (this y hy)⟩

theorem styleOf_fits (i : Nat) : StyleFits usualStyle (styleOf i) := by
  apply style_fits _ rfl rfl rfl rfl
  simp only [styleFields, List.forall_mem_cons]
  have z : (['0'] : Str).all calm = true := by decide
  have one : (['1'] : Str).all calm = true := by decide
  have two : (['2'] : Str).all calm = true := by decide
  have ten : "10".toList.all calm = true := by decide
  have hun : "100".toList.all calm = true := by decide
  have fn : "Arial".toList.all calm = true := by decide
  have bk : "&H00000000&".toList.all calm = true := by decide
  exact ⟨styleName_calm i, fn, showNat_calm _, colour_calm i, colour_calm i, colour_calm i, bk, z, z, z, z, hun, hun, z, z, one, two, z, two,
    ten, ten, ten, one, nofun⟩

/-- A dialogue. -/
def eventOf (start stop style name text : Str) : Event :=
  { kind := .dialogue, layer := ['0'], start, stop, style, name,
    marginL := ['0'], marginR := ['0'], marginV := ['0'], marginT := none, marginB := none, effect := [], text }

theorem event_fits {a b s n t : Str} (ha : a.all calm = true) (hb : b.all calm = true) (hs : s.all calm = true) (hn : n.all calm = true)
    (ht : Trimmed t) (hl : '\n' ∉ t) : EventFits usualEvent (eventOf a b s n t) := by
  have hc : ∀ x ∈ eventFields, (x.2 (eventOf a b s n t)).all calm = true := by
    simp only [eventFields, List.forall_mem_cons]
    have z : (['0'] : Str).all calm = true := by decide
    exact ⟨z, ha, hb, hs, hn, z, z, z, rfl, nofun⟩
  have ho : ∀ x ∈ eventOptions, x.2 (eventOf a b s n t) = none := by
    simp only [eventOptions, List.forall_mem_cons]
    exact ⟨rfl, rfl, nofun⟩
  refine ⟨⟨fun x hx => (calm_fields (hc x hx)).1, ?_⟩, ht, ⟨fun x hx => (calm_fields (hc x hx)).2.1, ?_, hl⟩, ?_, ?_, ?_⟩
  · intro x hx v hv; rw [ho x hx] at hv; cases hv
  · intro x hx v hv; rw [ho x hx] at hv; cases hv
  · have : ∀ y ∈ eventFields, Has usualEvent y.1 := by
      intro y hy
      refine ⟨y.1, ?_, rfl⟩
      simp only [eventFields, List.mem_cons, List.not_mem_nil, or_false] at hy
      rcases hy with rfl | rfl | rfl | rfl | rfl | rfl | rfl | rfl | rfl <;> decide
    intro y hy h
    exact absurd (this y hy) h
  · have : ∀ y ∈ eventOptions, ¬ Has usualEvent y.1 := by
      simp only [eventOptions, List.forall_mem_cons]
      unfold Has SameName
      refine ⟨by decide, by decide, nofun⟩
    intro y hy
    rw [ho y hy]
    exact ⟨fun h => absurd h (by decide), fun h => absurd h (this y hy)⟩
  · intro h
    exact absurd ⟨"Text".toList, by decide, rfl⟩ h

theorem event_line (a b s n t : Str) : (eventOf a b s n t).toAssWith usualEvent =
    "Dialogue: 0,".toList ++ a ++ [','] ++ b ++ [','] ++ s ++ [','] ++ n ++ ",0,0,0,,".toList ++ t := by
  have e : (eventOf a b s n t).toAssWith usualEvent = Ast.Kind.dialogue.str ++ ": ".toList ++
      joinStr [','] [['0'], a, b, s, n, ['0'], ['0'], ['0'], [], t] := rfl
  have j : ∀ (x y : Str) (l : List Str), joinStr [','] (x :: y :: l) = x ++ [','] ++ joinStr [','] (y :: l) := fun _ _ _ => rfl
  have j1 : ∀ x : Str, joinStr [','] [x] = x := fun _ => rfl
  have e1 : "Dialogue: 0,".toList = Ast.Kind.dialogue.str ++ ": ".toList ++ ['0'] ++ [','] := by decide
  have e2 : ",0,0,0,,".toList = [','] ++ ['0'] ++ [','] ++ ['0'] ++ [','] ++ ['0'] ++ [','] ++ [','] := by decide
  rw [e, e1, e2]
  simp only [j, j1, List.append_assoc, List.nil_append]

theorem style_line (i : Nat) : (styleOf i).toAssWith usualStyle ++ ['\n'] = styleLine i := by
  have e : (styleOf i).toAssWith usualStyle = "Style: ".toList ++
      joinStr [','] [styleName i, "Arial".toList, showNat (20 + i * 2), colour i, colour i, colour i, "&H00000000&".toList, ['0'], ['0'], ['0'], ['0'],
        "100".toList, "100".toList, ['0'], ['0'], ['1'], ['2'], ['0'], ['2'], "10".toList, "10".toList, "10".toList, ['1']] := rfl
  have j : ∀ (x y : Str) (l : List Str), joinStr [','] (x :: y :: l) = x ++ [','] ++ joinStr [','] (y :: l) := fun _ _ _ => rfl
  have e2 : ",Arial,".toList = [','] ++ "Arial".toList ++ [','] := by decide
  have e3 : ",&H00000000&,0,0,0,0,100,100,0,0,1,2,0,2,10,10,10,1\n".toList = [','] ++ (joinStr [','] ["&H00000000&".toList, ['0'], ['0'], ['0'], ['0'],
        "100".toList, "100".toList, ['0'], ['0'], ['1'], ['2'], ['0'], ['2'], "10".toList, "10".toList, "10".toList, ['1']] ++ ['\n']) := by decide
  unfold styleLine
  rw [e, e2, e3, j, j, j, j, j, j]
  simp only [List.append_assoc]

/-! ## Texts -/

open Verif.Spec.Ovr
open Verif.Spec.Generators (shown decimal signOf)

def balancedB : Nat → Str → Bool
  | d, [] => d == 1
  | d, c :: s => if c = '{' then decide (d < 100) && balancedB (d + 1) s else if c = '}' then
      (match d with | 0 => false | d + 1 => decide (0 < d) && balancedB d s) else balancedB d s

theorem balanced_of : ∀ {s : Str} {d : Nat}, balancedB d s = true → Balanced d s
  | [], d, h => by
    simp only [balancedB, beq_iff_eq] at h
    subst h; exact .done
  | c :: s, d, h => by
    rw [balancedB.eq_def] at h
    simp only [] at h
    split at h
    · next hc =>
      subst hc
      simp only [Bool.and_eq_true, decide_eq_true_eq] at h
      exact .opn d s h.1 (balanced_of h.2)
    · next h1 =>
      split at h
      · next hc =>
        subst hc
        split at h
        · cases h
        · next d =>
          simp only [Bool.and_eq_true, decide_eq_true_eq] at h
          exact .cls d s h.1 (balanced_of h.2)
      · next h2 => exact .other d c s h1 h2 (balanced_of h)

/-- No drawing tag begins here. -/
def quiet : Str → Bool
  | '\\' :: 'p' :: c :: _ => !c.isDigit && c != '-'
  | _ => true

def noDraw : Str → Bool
  | [] => true
  | c :: s => quiet (c :: s) && noDraw s

theorem no_draw : ∀ {s : Str}, noDraw s = true → ∀ a n, ¬ DrawTag s a n := by
  intro s h a
  induction a generalizing s with
  | nil =>
    rintro n ⟨num, rest, e, ⟨ds, hne, hd, hn⟩, _⟩
    obtain ⟨c, r, e1, hc⟩ : ∃ c r, num = c :: r ∧ (Digit c ∨ c = '-') := by
      rcases hn with ⟨rfl, _⟩ | ⟨rfl, _⟩
      · cases num with
        | nil => exact absurd rfl hne
        | cons c r => exact ⟨c, r, rfl, .inl (hd c (by simp))⟩
      · exact ⟨_, _, rfl, .inr rfl⟩
    subst e1
    have e : s = '\\' :: 'p' :: c :: (r ++ rest) := by rw [e]; simp
    rw [e, noDraw, quiet] at h
    simp only [Bool.and_eq_true, Bool.not_eq_true', bne_iff_ne, ne_eq] at h
    rcases hc with hc | hc
    · have : c.isDigit = true := by
        simp only [Char.isDigit, Bool.and_eq_true, decide_eq_true_eq]
        exact ⟨hc.1, hc.2⟩
      rw [this] at h; cases h.1.1
    · exact h.1.2 hc
  | cons x a ih =>
    rintro n ⟨num, rest, e, h1, h2⟩
    rw [e] at h
    have h : noDraw (a ++ '\\' :: 'p' :: num ++ rest) = true := by
      simp only [List.cons_append, noDraw, Bool.and_eq_true] at h
      simpa using h.2
    exact ih h n ⟨num, rest, rfl, h1, h2⟩

inductive Pc
  | b (c : Str)
  | p (s : Str)

def Pc.text : Pc → Str
  | .b c => '{' :: c ++ ['}']
  | .p s => s

def Pc.shown : Pc → Str
  | .b _ => []
  | .p s => s

/-- Characters shown as they are. -/
def clear (c : Char) : Bool := c != '{' && c != '\\' && c != '\n'

def Pc.good : Pc → Bool
  | .b c => balancedB 1 c && noDraw c && c.all (· != '\n')
  | .p s => s.all clear

theorem vis_plain : ∀ {d s t : Str}, d.all clear = true → Visible false s t → Visible false (d ++ s) (d ++ t)
  | [], _, _, _, h => h
  | c :: d, s, t, hd, h => by
    simp only [List.all_cons, Bool.and_eq_true, clear, bne_iff_ne, ne_eq] at hd
    have := Visible.char false c _ _ ⟨hd.1.1.1, hd.1.1.2⟩ (vis_plain hd.2 h)
    simpa using this

theorem vis_pieces : ∀ {A : List Pc} {s t : Str}, A.all Pc.good = true → Visible false s t →
    Visible false (A.flatMap Pc.text ++ s) (A.flatMap Pc.shown ++ t)
  | [], _, _, _, h => h
  | .b c :: A, s, t, hA, h => by
    simp only [List.all_cons, Bool.and_eq_true, Pc.good] at hA
    have := Visible.block false false c _ _ (balanced_of hA.1.1.1) (.inl ⟨no_draw hA.1.1.2, rfl⟩) (vis_pieces hA.2 h)
    simpa [Pc.text, Pc.shown] using this
  | .p x :: A, s, t, hA, h => by
    simp only [List.all_cons, Bool.and_eq_true, Pc.good] at hA
    have := vis_plain hA.1 (vis_pieces hA.2 h)
    simpa [Pc.text, Pc.shown] using this

theorem flat_pieces : ∀ {A : List Pc}, A.all Pc.good = true → '\n' ∉ A.flatMap Pc.text
  | [], _ => by simp
  | .b c :: A, hA => by
    simp only [List.all_cons, Bool.and_eq_true, Pc.good] at hA
    have h1 : '\n' ∉ c := fun hc => by have := List.all_eq_true.1 hA.1.2 _ hc; simp at this
    have := flat_pieces hA.2
    simp [Pc.text, h1, this]
  | .p x :: A, hA => by
    simp only [List.all_cons, Bool.and_eq_true, Pc.good] at hA
    have h1 : '\n' ∉ x := fun hc => by have := List.all_eq_true.1 hA.1 _ hc; simp [clear] at this
    have := flat_pieces hA.2
    simp [Pc.text, h1, this]

/-- A text that shows `w`, fit for the line of an event. -/
structure Fine (t w : Str) : Prop where
  visible : Visible false t w
  flat : '\n' ∉ t
  trimmed : Trimmed t

/-- The first and the last character are visible. -/
def edges (x y : Str) : Bool := (x.head?.any fun c => !isWs c) && (y.getLast?.any fun c => !isWs c)

theorem trimmed_edges {x y : Str} (d : Str) (h : edges x y = true) : Trimmed (x ++ d ++ y) := by
  simp only [edges, Bool.and_eq_true] at h
  obtain ⟨h1, h2⟩ := h
  have key : ∀ c, isWs c = false → ¬ White c := fun c hc hw => by rw [(SrtDoc.white_iff c).2 hw] at hc; cases hc
  constructor
  · intro c hc
    cases x with
    | nil => cases h1
    | cons a x =>
      simp at hc h1
      subst hc
      exact key _ h1
  · intro c hc
    cases e : y.getLast? with
    | none => rw [e] at h2; cases h2
    | some a =>
      rw [List.getLast?_append, e] at hc
      simp at hc
      subst hc
      rw [e] at h2
      simp at h2
      exact key _ h2

theorem fine {A B : List Pc} {x y d w : Str} (hA : A.flatMap Pc.text = x) (hB : B.flatMap Pc.text = y) (ga : A.all Pc.good = true)
    (gb : B.all Pc.good = true) (gd : d.all clear = true) (hw : w = A.flatMap Pc.shown ++ (d ++ B.flatMap Pc.shown)) (ht : Trimmed (x ++ d ++ y)) :
    Fine (x ++ d ++ y) w := by
  refine ⟨?_, ?_, ht⟩
  · have := vis_pieces ga (vis_plain gd (vis_pieces gb (.nil false)))
    rw [hA, hB, List.append_nil, List.append_nil] at this
    rw [hw, List.append_assoc]
    exact this
  · have h1 := flat_pieces ga
    have h2 := flat_pieces gb
    have h3 : '\n' ∉ d := fun hc => by have := List.all_eq_true.1 gd _ hc; simp [clear] at this
    rw [hA] at h1; rw [hB] at h2
    simp [h1, h2, h3]

theorem digit_clear {d : Str} (h : ∀ c ∈ d, c.isDigit) : d.all clear = true := by
  rw [List.all_eq_true]
  intro c hc
  have := h c hc
  simp only [clear, Bool.and_eq_true, bne_iff_ne, ne_eq]
  refine ⟨⟨?_, ?_⟩, ?_⟩ <;> rintro rfl <;> exact absurd this (by decide)

theorem showNat_clear (n : Nat) : (showNat n).all clear = true := digit_clear (showNat_digits n)

theorem base_clear (i : Nat) : (base i).all clear = true := by
  unfold base
  rw [List.all_append, showNat_clear]; decide

/-- A text that ends with a number. -/
theorem edge_number {x p : Str} (n : Nat) (h : (x ++ p).head?.any (fun c => !isWs c) = true) : Trimmed (x ++ (p ++ showNat n) ++ []) := by
  rw [List.append_nil, ← List.append_assoc, ← List.append_nil (x ++ p)]
  apply trimmed_edges
  unfold edges
  rw [h, Bool.true_and]
  cases e : (showNat n).getLast? with
  | none => exact absurd (List.getLast?_eq_none_iff.1 e) (showNat_ne_nil n)
  | some c =>
    have := List.all_eq_true.1 (showNat_calm n) c (List.mem_of_getLast? e)
    simp only [calm, Bool.and_eq_true] at this
    exact this.1.1.1.1.1

/-- The text as the parser keeps it: without the blank at its end. -/
def cut (l : Level) (i : Nat) : Str := if l = .karaoke ∧ i % 3 ≠ 0 then (dialogueText l i).dropLast else dialogueText l i

def blank (l : Level) (i : Nat) : Str := if l = .karaoke ∧ i % 3 ≠ 0 then [' '] else []

theorem base_eq (i : Nat) : base i = "This is dialogue line number ".toList ++ decimal (i + 1) := rfl

theorem words_base (i : Nat) : FormatDoc.splitWs (base i) = ["This".toList, "is".toList, "dialogue".toList, "line".toList, "number".toList, showNat (i + 1)] := by
  have e : FormatDoc.splitWs (base i) = ["This".toList, "is".toList, "dialogue".toList, "line".toList, "number".toList] ++ FormatDoc.splitWsAux [] (showNat (i + 1)) := rfl
  have h : ∀ c ∈ showNat (i + 1), isWs c = false := by
    intro c hc
    have := List.all_eq_true.1 (showNat_calm (i + 1)) c hc
    simp only [calm, Bool.and_eq_true, Bool.not_eq_true'] at this
    exact this.1.1.1.1.1
  have := FormatDoc.splitWs_word h [] []
  rw [List.append_nil, List.append_nil] at this
  rw [e, this, FormatDoc.splitWsAux, if_neg (by simp [showNat_ne_nil]), List.reverse_reverse]
  rfl

set_option maxRecDepth 20000 in
theorem karaoke_eq (i : Nat) : karaokeText i (base i) =
    r"{\an5\pos(960,540)\fad(200,200)\b1\bord2\shad1\c&H00FFFFFF&\3c&H00FF6347&}{\k50}This {\k80}is {\k110}dialogue {\k140}line {\k170}number {\k200}".toList ++
      showNat (i + 1) ++ (' ' :: if i % 3 = 0 then r"{\t(2000,3000,\fscx120\fscy120\alpha&HFF&)}".toList else []) := by
  unfold karaokeText
  rw [words_base]
  have e : karaokeWords 0 ["This".toList, "is".toList, "dialogue".toList, "line".toList, "number".toList, showNat (i + 1)] =
      r"{\k50}This {\k80}is {\k110}dialogue {\k140}line {\k170}number {\k200}".toList ++ (showNat (i + 1) ++ [' ']) := by
    have k : ∀ w : Str, karaokeWords 5 [w] = r"{\k200}".toList ++ (w ++ [' ']) := by
      intro w
      have : showNat (50 + 5 * 30) = "200".toList := by decide
      simp only [karaokeWords, this, List.append_assoc]
      rfl
    have e1 : showNat (50 + 0 * 30) = "50".toList := by decide
    have e2 : showNat (50 + (0 + 1) * 30) = "80".toList := by decide
    have e3 : showNat (50 + (0 + 1 + 1) * 30) = "110".toList := by decide
    have e4 : showNat (50 + (0 + 1 + 1 + 1) * 30) = "140".toList := by decide
    have e5 : showNat (50 + (0 + 1 + 1 + 1 + 1) * 30) = "170".toList := by decide
    rw [karaokeWords, karaokeWords, karaokeWords, karaokeWords, karaokeWords, k, e1, e2, e3, e4, e5]
    have : r"{\k50}This {\k80}is {\k110}dialogue {\k140}line {\k170}number {\k200}".toList = r"{\k".toList ++ "50".toList ++ ['}'] ++ "This".toList ++ [' '] ++
        (r"{\k".toList ++ "80".toList ++ ['}'] ++ "is".toList ++ [' '] ++ (r"{\k".toList ++ "110".toList ++ ['}'] ++ "dialogue".toList ++ [' '] ++
        (r"{\k".toList ++ "140".toList ++ ['}'] ++ "line".toList ++ [' '] ++ (r"{\k".toList ++ "170".toList ++ ['}'] ++ "number".toList ++ [' '] ++
        r"{\k200}".toList)))) := by decide
    rw [this]
    simp only [List.append_assoc]
  have e2 : r"{\an5\pos(960,540)\fad(200,200)\b1\bord2\shad1\c&H00FFFFFF&\3c&H00FF6347&}{\k50}This {\k80}is {\k110}dialogue {\k140}line {\k170}number {\k200}".toList =
      r"{\an5\pos(960,540)\fad(200,200)\b1\bord2\shad1\c&H00FFFFFF&\3c&H00FF6347&}".toList ++
      r"{\k50}This {\k80}is {\k110}dialogue {\k140}line {\k170}number {\k200}".toList := by decide
  rw [e, e2]
  simp only [List.append_assoc, List.cons_append, List.nil_append]

theorem replace_base (i : Nat) : replaceAll "dialogue line".toList "sign".toList (base i) = "This is sign number ".toList ++ showNat (i + 1) := by
  have e : base i = "This is ".toList ++ ("dialogue line".toList ++ (" number ".toList ++ showNat (i + 1))) := by
    unfold base
    rw [← List.append_assoc, ← List.append_assoc]
    rfl
  have hd : 'd' ∉ " number ".toList ++ showNat (i + 1) := by
    intro h
    rcases List.mem_append.1 h with h | h
    · revert h; decide
    · have := showNat_digits _ _ h
      revert this; decide
  rw [e, SrtDoc.replaceAll_clear (by decide), replaceAll_prefix _ (by decide)]
  have : replaceAll "dialogue line".toList "sign".toList (" number ".toList ++ showNat (i + 1)) = " number ".toList ++ showNat (i + 1) :=
    FormatDoc.replaceAll_no hd
  rw [this, ← List.append_assoc, ← List.append_assoc]
  rfl

theorem contains_base (i : Nat) : containsStr "number".toList (base i) = true := by
  rw [containsStr_iff]
  refine ⟨"This is dialogue line ".toList, ' ' :: showNat (i + 1), ?_⟩
  have : "This is dialogue line number ".toList = "This is dialogue line ".toList ++ "number".toList ++ [' '] := by decide
  unfold base
  rw [this]
  simp

theorem pick_eq (l : List Str) (i k : Nat) (h : i % l.length = k) : pick l i = l.getD k [] := by unfold pick; rw [h]

theorem fine_base {A : List Pc} {x w : Str} (i : Nat) (hA : A.flatMap Pc.text = x) (ga : A.all Pc.good = true)
    (hx : (x ++ "This is dialogue line number ".toList).head?.any (fun c => !isWs c) = true) (hw : w = A.flatMap Pc.shown ++ base i) : Fine (x ++ base i) w := by
  have := fine (B := []) (y := []) hA rfl ga rfl (base_clear i) (w := w) (by rw [hw]; simp) (edge_number (i + 1) hx)
  rwa [List.append_nil] at this

set_option maxRecDepth 20000 in
theorem anime_fine (i : Nat) : Fine (animeText i (base i)) (base i) := by
  unfold animeText
  have : i % 4 = 0 ∨ i % 4 = 1 ∨ i % 4 = 2 ∨ i % 4 = 3 := by omega
  rcases this with h | h | h | h <;> rw [pick_eq _ _ _ h]
  · exact fine_base i (A := [.b r"\an8\pos(960,80)\fad(250,250)\bord3\shad0\c&H00FFFFFF&\3c&H00FF8C00&".toList]) (by decide) (by decide) (by decide) rfl
  · exact fine_base i (A := [.b r"\an5\pos(960,540)\fad(500,500)\alpha&H80&\bord2\c&H00E6E6FA&\3c&H00483D8B&".toList]) (by decide) (by decide) (by decide) rfl
  · exact fine_base i (A := [.b r"\an2\pos(960,980)\fad(300,800)\b1\bord4\shad3\c&H0000FFFF&\3c&H000000FF&\4c&H00000000&\t(0,2000,\c&H00FF0000&)".toList]) (by decide) (by decide) (by decide) rfl
  · exact fine_base i (A := [.b r"\an7\pos(200,400)\fad(200,200)\bord2\c&H00FFFFFF&\3c&H00800080&".toList]) (by decide) (by decide) (by decide) rfl

set_option maxRecDepth 20000 in
theorem movie_fine (i : Nat) : Fine (movieText i (base i)) (base i) := by
  unfold movieText
  have : i % 4 = 0 ∨ i % 4 = 1 ∨ i % 4 = 2 ∨ i % 4 = 3 := by omega
  rcases this with h | h | h | h <;> rw [pick_eq _ _ _ h]
  · exact fine_base i (A := []) (x := []) rfl rfl (by decide) rfl
  · exact fine (A := [.b r"\i1".toList]) (B := [.b r"\i0".toList]) (by decide) (by decide) (by decide) (by decide) (base_clear i) (by simp [Pc.shown]) (trimmed_edges _ (by decide))
  · exact fine (A := [.b r"\b1".toList]) (B := [.b r"\b0".toList]) (by decide) (by decide) (by decide) (by decide) (base_clear i) (by simp [Pc.shown]) (trimmed_edges _ (by decide))
  · exact fine_base i (A := [.b r"\an8".toList]) (by decide) (by decide) (by decide) rfl

theorem shown_educational (i : Nat) {k : Nat} (h : i % 6 = k) : shown .educational i = (match (generalizing := false) k with
    | 0 => base i ++ " - This explains the concept in detail with proper formatting.".toList
    | 1 => "Question ".toList ++ decimal (i + 1) ++ ": ".toList ++ base i
    | 2 => "Answer: ".toList ++ base i
    | 3 => "Definition: ".toList ++ base i
    | 4 => "Example: ".toList ++ base i
    | _ => "Summary: ".toList ++ base i) := by
  subst h; rfl

set_option maxRecDepth 20000 in
theorem educational_fine (i : Nat) : Fine (educationalText i (base i)) (shown .educational i) := by
  unfold educationalText
  have : i % 6 = 0 ∨ i % 6 = 1 ∨ i % 6 = 2 ∨ i % 6 = 3 ∨ i % 6 = 4 ∨ i % 6 = 5 := by omega
  rcases this with h | h | h | h | h | h <;> rw [pick_eq _ _ _ h, shown_educational i h]
  · exact fine (A := [.b r"\an2\pos(960,900)\fad(200,200)\bord1\c&H00FFFFFF&".toList]) (B := [.p " - This explains the concept in detail with proper formatting.".toList])
      (by decide) (by decide) (by decide) (by decide) (base_clear i) (by simp [Pc.shown]) (trimmed_edges _ (by decide))
  · have h1 : ∀ a b c : Str, a ++ b ++ c ++ base i = a ++ (b ++ c ++ base i) := by simp
    have hc : (showNat (i + 1) ++ ": ".toList ++ base i).all clear = true := by
      rw [List.all_append, List.all_append, showNat_clear, base_clear]; decide
    have := fine (A := [.b r"\an8\pos(960,150)\fad(200,200)\b1\c&H0000FFFF&".toList, .p "Question ".toList]) (B := [])
      (x := r"{\an8\pos(960,150)\fad(200,200)\b1\c&H0000FFFF&}Question ".toList) (y := [])
      (w := "Question ".toList ++ decimal (i + 1) ++ ": ".toList ++ base i) (by decide) rfl (by decide) rfl hc
      (by simp only [List.flatMap_cons, List.flatMap_nil, Pc.shown, List.append_nil, List.nil_append, List.append_assoc]; rfl)
      (by
        have := edge_number (x := r"{\an8\pos(960,150)\fad(200,200)\b1\c&H0000FFFF&}Question ".toList) (p := showNat (i + 1) ++ ": ".toList ++ "This is dialogue line number ".toList) (i + 1)
          (by
            have : ∀ z : Str, (r"{\an8\pos(960,150)\fad(200,200)\b1\c&H0000FFFF&}Question ".toList ++ z).head? = some '{' := fun z => rfl
            rw [this]; decide)
        unfold base
        simpa only [List.append_assoc] using this)
    rw [List.append_nil] at this
    show Fine (r"{\an8\pos(960,150)\fad(200,200)\b1\c&H0000FFFF&}Question ".toList ++ showNat (i + 1) ++ ": ".toList ++ base i) _
    rw [h1]
    exact this
  · exact fine_base i (A := [.b r"\an7\pos(100,400)\fad(200,200)\i1\c&H0000FF00&".toList, .p "Answer: ".toList]) (by decide) (by decide) (by decide) rfl
  · exact fine_base i (A := [.b r"\an5\pos(960,540)\fad(200,200)\bord2\c&H00FFFFFF&\3c&H000080FF&".toList, .p "Definition: ".toList]) (by decide) (by decide) (by decide) rfl
  · exact fine_base i (A := [.b r"\an1\pos(100,900)\fad(200,200)\c&H00FFFF00&".toList, .p "Example: ".toList]) (by decide) (by decide) (by decide) rfl
  · exact fine_base i (A := [.b r"\an9\pos(1700,100)\fad(200,200)\b1\c&H00FF8000&".toList, .p "Summary: ".toList]) (by decide) (by decide) (by decide) rfl

theorem fine_sign {A : List Pc} {x w : Str} (i : Nat) (hA : A.flatMap Pc.text = x) (ga : A.all Pc.good = true)
    (hx : (x ++ "This is sign number ".toList).head?.any (fun c => !isWs c) = true)
    (hw : w = A.flatMap Pc.shown ++ ("This is sign number ".toList ++ showNat (i + 1))) : Fine (x ++ ("This is sign number ".toList ++ showNat (i + 1))) w := by
  have hc : ("This is sign number ".toList ++ showNat (i + 1)).all clear = true := by rw [List.all_append, showNat_clear]; decide
  have := fine (B := []) (y := []) hA rfl ga rfl hc (w := w) (by rw [hw]; simp) (edge_number (i + 1) hx)
  rwa [List.append_nil] at this

set_option maxRecDepth 20000 in
theorem sign_fine (i : Nat) : Fine (signText i (base i)) (shown .sign i) := by
  unfold signText
  simp only []
  rw [if_pos (contains_base i), replace_base]
  have hs : shown .sign i = signOf i ++ ": This is sign number ".toList ++ showNat (i + 1) := rfl
  have tail : ": This is sign number ".toList = ": ".toList ++ "This is sign number ".toList := by decide
  rw [hs, tail]
  have key : ∀ (pos content name : Str), signs.getD (i % signs.length) ([], []) = (pos, name) → signOf i = name →
      pos ++ r"\fad(500,500)\bord3\shad2\c&H00000000&\3c&H00FFFFFF&\fn{Arial}\fs36}".toList = '{' :: content ++ ['}'] →
      ([Pc.b content, .p (name ++ ": ".toList)].all Pc.good = true) →
      Fine ((signs.getD (i % signs.length) ([], [])).1 ++ r"\fad(500,500)\bord3\shad2\c&H00000000&\3c&H00FFFFFF&\fn{Arial}\fs36}".toList ++
        ((signs.getD (i % signs.length) ([], [])).2 ++ ": ".toList ++ ("This is sign number ".toList ++ showNat (i + 1))))
        (signOf i ++ (": ".toList ++ "This is sign number ".toList) ++ showNat (i + 1)) := by
    intro pos content name h1 h2 h3 h4
    rw [h1, h2]
    simp only []
    rw [h3]
    have := fine_sign (A := [.b content, .p (name ++ ": ".toList)]) (x := '{' :: content ++ ['}'] ++ name ++ ": ".toList)
      (w := name ++ (": ".toList ++ "This is sign number ".toList) ++ showNat (i + 1)) i
      (by simp [Pc.text]) h4 (by
        have : ∀ z : Str, ('{' :: z).head?.any (fun c => !isWs c) = true := fun z => rfl
        simp only [List.cons_append]
        exact this _) (by simp [Pc.shown])
    simpa only [List.append_assoc] using this
  have hl : ∀ k, i % 6 = k → signs.getD (i % signs.length) ([], []) = signs.getD k ([], []) := fun k h => by
    have : signs.length = 6 := by decide
    rw [this, h]
  have ho : ∀ k, i % 6 = k → signOf i = signOf k := fun k h => by
    unfold signOf
    rw [← h, Nat.mod_mod]
  have : i % 6 = 0 ∨ i % 6 = 1 ∨ i % 6 = 2 ∨ i % 6 = 3 ∨ i % 6 = 4 ∨ i % 6 = 5 := by omega
  rcases this with h | h | h | h | h | h
  · exact key _ (r"\an8\pos(960,100)".toList ++ r"\fad(500,500)\bord3\shad2\c&H00000000&\3c&H00FFFFFF&\fn{Arial}\fs36".toList) _ (hl _ h) (ho _ h) (by decide) (by decide)
  · exact key _ (r"\an9\pos(1700,150)".toList ++ r"\fad(500,500)\bord3\shad2\c&H00000000&\3c&H00FFFFFF&\fn{Arial}\fs36".toList) _ (hl _ h) (ho _ h) (by decide) (by decide)
  · exact key _ (r"\an7\pos(220,120)".toList ++ r"\fad(500,500)\bord3\shad2\c&H00000000&\3c&H00FFFFFF&\fn{Arial}\fs36".toList) _ (hl _ h) (ho _ h) (by decide) (by decide)
  · exact key _ (r"\an5\pos(960,540)".toList ++ r"\fad(500,500)\bord3\shad2\c&H00000000&\3c&H00FFFFFF&\fn{Arial}\fs36".toList) _ (hl _ h) (ho _ h) (by decide) (by decide)
  · exact key _ (r"\an2\pos(960,950)".toList ++ r"\fad(500,500)\bord3\shad2\c&H00000000&\3c&H00FFFFFF&\fn{Arial}\fs36".toList) _ (hl _ h) (ho _ h) (by decide) (by decide)
  · exact key _ (r"\an4\pos(100,540)".toList ++ r"\fad(500,500)\bord3\shad2\c&H00000000&\3c&H00FFFFFF&\fn{Arial}\fs36".toList) _ (hl _ h) (ho _ h) (by decide) (by decide)

theorem shown_karaoke (i : Nat) : shown .karaoke i = if i % 3 = 0 then base i ++ [' '] else base i := by
  rw [base_eq]
  unfold shown
  simp only []

set_option maxRecDepth 20000 in
theorem karaoke_fine (i : Nat) : Fine (cut .karaoke i) (shown .karaoke i) := by
  have hA : ([.b r"\an5\pos(960,540)\fad(200,200)\b1\bord2\shad1\c&H00FFFFFF&\3c&H00FF6347&".toList, .b r"\k50".toList, .p "This ".toList, .b r"\k80".toList,
      .p "is ".toList, .b r"\k110".toList, .p "dialogue ".toList, .b r"\k140".toList, .p "line ".toList, .b r"\k170".toList, .p "number ".toList, .b r"\k200".toList] : List Pc).flatMap Pc.text =
      r"{\an5\pos(960,540)\fad(200,200)\b1\bord2\shad1\c&H00FFFFFF&\3c&H00FF6347&}{\k50}This {\k80}is {\k110}dialogue {\k140}line {\k170}number {\k200}".toList := by decide
  have hb : base i = "This is dialogue line number ".toList ++ showNat (i + 1) := rfl
  unfold cut
  by_cases h : i % 3 = 0
  · rw [if_neg (by simp [h])]
    show Fine (karaokeText i (base i)) _
    rw [karaoke_eq, if_pos h]
    have hs : shown .karaoke i = base i ++ [' '] := by rw [shown_karaoke, if_pos h]
    rw [hs]
    exact fine hA (B := [.p [' '], .b r"\t(2000,3000,\fscx120\fscy120\alpha&HFF&)".toList]) (by decide) (by decide) (by decide) (showNat_clear _)
      (by rw [hb]; rfl) (trimmed_edges _ (by decide))
  · rw [if_pos ⟨rfl, h⟩]
    show Fine (karaokeText i (base i)).dropLast _
    rw [karaoke_eq, if_neg h, List.dropLast_concat]
    have hs : shown .karaoke i = base i := by rw [shown_karaoke, if_neg h]
    rw [hs]
    have := fine hA (B := []) (y := []) rfl (by decide) rfl (showNat_clear (i + 1)) (w := base i) (by rw [hb]; simp [Pc.shown])
      (by have := edge_number (x := r"{\an5\pos(960,540)\fad(200,200)\b1\bord2\shad1\c&H00FFFFFF&\3c&H00FF6347&}{\k50}This {\k80}is {\k110}dialogue {\k140}line {\k170}number {\k200}".toList) (p := []) (i + 1) (by decide)
          simpa only [List.nil_append] using this)
    rwa [List.append_nil] at this

theorem cut_other {l : Level} (h : l ≠ .karaoke) (i : Nat) : cut l i = dialogueText l i := by
  unfold cut
  rw [if_neg (fun x => h x.1)]

set_option maxRecDepth 20000 in
theorem text_fine (l : Level) (i : Nat) : Fine (cut l i) (shown l i) := by
  cases l with
  | karaoke => exact karaoke_fine i
  | simple => rw [cut_other (by decide)]; exact fine_base i (A := []) (x := []) rfl rfl (by decide) rfl
  | moderate =>
    rw [cut_other (by decide)]
    exact fine (A := [.b r"\b1".toList]) (B := [.b r"\b0".toList, .p " with ".toList, .b r"\i1".toList, .p "some".toList, .b r"\i0".toList, .p " formatting".toList])
      (by decide) (by decide) (by decide) (by decide) (base_clear i) rfl (trimmed_edges _ (by decide))
  | complex =>
    rw [cut_other (by decide)]
    exact fine (A := [.b r"\pos(100,200)\fad(500,500)\b1\i1\c&H00FF00&".toList])
      (B := [.b r"\b0\i0\c&HFFFFFF&".toList, .p " with ".toList, .b r"\t(0,1000,\frz360)".toList, .p "animation".toList, .b r"\t(1000,2000,\frz0)".toList])
      (by decide) (by decide) (by decide) (by decide) (base_clear i) rfl (trimmed_edges _ (by decide))
  | extreme =>
    rw [cut_other (by decide)]
    exact fine (A := [.b r"\pos(100,200)\move(100,200,500,400)\fad(300,300)\t(0,500,\fscx120\fscy120)\t(500,1000,\fscx100\fscy100)\b1\i1\u1\s1\bord2\shad2\c&H00FF00&\3c&H0000FF&\4c&H000000&\alpha&H00\3a&H80".toList])
      (B := [.b r"\b0\i0\u0\s0\r".toList, .p " ".toList, .b r"\k50".toList, .p "with ".toList, .b r"\k30".toList, .p "karaoke ".toList, .b r"\k40".toList, .p "timing ".toList,
        .b r"\k60".toList, .p "and ".toList, .b r"\k45".toList, .p "complex ".toList, .b r"\k35".toList, .p "animations".toList])
      (by decide) (by decide) (by decide) (by decide) (base_clear i) rfl (trimmed_edges _ (by decide))
  | anime => rw [cut_other (by decide)]; exact anime_fine i
  | movie => rw [cut_other (by decide)]; exact movie_fine i
  | sign => rw [cut_other (by decide)]; exact sign_fine i
  | educational => rw [cut_other (by decide)]; exact educational_fine i

theorem cut_blank (l : Level) (i : Nat) : dialogueText l i = cut l i ++ blank l i := by
  unfold cut blank
  split
  · next h =>
    obtain ⟨rfl, h⟩ := h
    show karaokeText i (base i) = (karaokeText i (base i)).dropLast ++ _
    rw [karaoke_eq, if_neg h, List.dropLast_concat]
  · simp

end Verif.Generators
