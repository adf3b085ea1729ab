import Verif.Spec.Converter
import Verif.Lemmas.Complete
import Verif.Lemmas.FormatDoc
import Verif.Props.SrtDoc
/-! Lemmas for C146. -/
namespace Verif.Converter
open Verif
open Verif.SrtDoc (Ev Entry)
open Verif.Spec.Lines
open Verif.Parser (Script Section Span parse toAss)
open Verif.Spec.Converter
open Verif.Spec.RoundTrip
open Verif.Spec.EventCmd (Trimmed Plain White)

/-! ## Extensions -/

theorem lower_capital {a c : Char} (h : (a, c) ∈ capitals) : a.toLower = c := by
  have : ∀ p ∈ capitals, p.1.toLower = p.2 := by decide +kernel
  exact this _ h

theorem lower_cases (a : Char) : a.toLower = a ∨ (a, a.toLower) ∈ capitals := by
  by_cases h : 65 ≤ a.toNat ∧ a.toNat ≤ 90
  · right
    have : ∀ n, n < 91 → 65 ≤ n → (Char.ofNat n, (Char.ofNat n).toLower) ∈ capitals := by decide +kernel
    have := this a.toNat (by omega) h.1
    rwa [Char.ofNat_toNat] at this
  · left
    unfold Char.toLower
    rw [dif_neg]
    intro hh
    apply h
    constructor
    · exact UInt32.le_iff_toNat_le.1 hh.1
    · exact UInt32.le_iff_toNat_le.1 hh.2

theorem spelled_iff {w : Str} (hw : w.map Char.toLower = w) : ∀ x : Str, Spelled x w ↔ x.map Char.toLower = w := by
  induction w with
  | nil =>
    intro x
    constructor
    · intro h; cases h; rfl
    · intro h
      rw [List.map_eq_nil_iff] at h
      subst h; exact .nil
  | cons c w ih =>
    rw [List.map_cons, List.cons.injEq] at hw
    intro x
    constructor
    · intro h
      cases h with
      | same h => rw [List.map_cons, hw.1, (ih hw.2 _).1 h]
      | capital hc h => rw [List.map_cons, lower_capital hc, (ih hw.2 _).1 h]
    · intro h
      cases x with
      | nil => cases h
      | cons a x =>
        rw [List.map_cons, List.cons.injEq] at h
        have := (ih hw.2 x).2 h.2
        rcases lower_cases a with e | e
        · rw [h.1] at e
          rw [← e]
          exact .same this
        · rw [h.1] at e
          exact .capital e this

theorem extension_iff (x : Str) (f : Format) : fromExtension x = some f ↔ ∃ w ∈ names f, Spelled x w := by
  have s : ∀ g : Format, ∀ w ∈ names g, (Spelled x w ↔ x.map Char.toLower = w) := by
    intro g w hw
    refine spelled_iff ?_ x
    have : ∀ g : Format, ∀ w ∈ names g, w.map Char.toLower = w := by
      intro g; cases g <;> decide
    exact this g w hw
  have s' : (∃ w ∈ names f, Spelled x w) ↔ x.map Char.toLower ∈ names f :=
    ⟨fun ⟨w, hw, h⟩ => by rw [(s f w hw).1 h]; exact hw, fun h => ⟨_, h, (s f _ h).2 rfl⟩⟩
  rw [s']
  unfold fromExtension
  dsimp only
  generalize x.map Char.toLower = e
  by_cases h1 : e = "ass".toList
  · subst h1; cases f <;> decide
  rw [if_neg h1]
  by_cases h2 : e = "ssa".toList
  · subst h2; cases f <;> decide
  rw [if_neg h2]
  by_cases h3 : e = "srt".toList
  · subst h3; cases f <;> decide
  rw [if_neg h3]
  by_cases h4 : e = "vtt".toList ∨ e = "webvtt".toList
  · rcases h4 with rfl | rfl <;> cases f <;> decide
  rw [if_neg h4]
  by_cases h5 : e = "txt".toList
  · subst h5; cases f <;> decide
  rw [if_neg h5]
  rw [not_or] at h4
  constructor
  · intro h; cases h
  · intro h
    cases f <;> simp only [names, List.mem_cons, List.not_mem_nil, or_false] at h
    · exact absurd h h1
    · exact absurd h h2
    · exact absurd h h3
    · rcases h with h | h
      · exact absurd h h4.1
      · exact absurd h h4.2
    · exact absurd h h5

theorem path_iff (path : Str) (f : Format) : ofPath path = some f ↔ Named path f := by
  unfold ofPath Named
  rw [Option.bind_eq_some_iff]
  constructor
  · rintro ⟨⟨a, e⟩, h1, h2⟩
    obtain ⟨h3, h4⟩ := Complete.rsplit_some.1 h1
    exact ⟨a, e, h3, h4, (extension_iff _ _).1 h2⟩
  · rintro ⟨a, e, h3, h4, h2⟩
    exact ⟨(a, e), Complete.rsplit_some.2 ⟨h3, h4⟩, (extension_iff _ _).2 h2⟩

/-! ## The scripts made -/

/-- What can stand in a line of an event. -/
def Fits (x : Str × Str × Str) : Prop :=
  (Plain x.1 ∧ '\n' ∉ x.1) ∧ (Plain x.2.1 ∧ '\n' ∉ x.2.1) ∧ Trimmed x.2.2 ∧ '\n' ∉ x.2.2

theorem said_fits {a b t : Str} (h : Fits (a, b, t)) : EventFits usualEvent (said a b t) := by
  have p0 : Plain ['0'] := Builders.plain_of (by decide)
  have pd : Plain "Default".toList := Builders.plain_of (by decide)
  have pn : Plain [] := Builders.plain_of (by decide)
  obtain ⟨⟨a1, a2⟩, ⟨b1, b2⟩, ht, hl⟩ := h
  refine ⟨⟨?_, ?_⟩, ht, ⟨?_, ?_, hl⟩, ?_, ?_, ?_⟩
  · simp only [eventFields, List.forall_mem_cons]
    exact ⟨p0, a1, b1, pd, pn, p0, p0, p0, pn, nofun⟩
  · simp only [eventOptions, List.forall_mem_cons]
    exact ⟨nofun, nofun, nofun⟩
  · simp only [eventFields, List.forall_mem_cons]
    have n0 : '\n' ∉ ['0'] := by decide
    have nn : '\n' ∉ ([] : Str) := by decide
    have nd : '\n' ∉ "Default".toList := by decide
    exact ⟨n0, a2, b2, nd, nn, n0, n0, n0, nn, nofun⟩
  · simp only [eventOptions, List.forall_mem_cons]
    exact ⟨nofun, nofun, nofun⟩
  · have : ∀ y ∈ eventFields, Has usualEvent y.1 := by
      intro y hy
      refine ⟨y.1, ?_, rfl⟩
      simp only [eventFields, List.mem_cons, List.not_mem_nil, or_false] at hy
      rcases hy with rfl | rfl | rfl | rfl | rfl | rfl | rfl | rfl | rfl <;> decide
    intro y hy h
    exact absurd (this y hy) h
  · have : ∀ y ∈ eventOptions, ¬ Has usualEvent y.1 := by
      simp only [eventOptions, List.forall_mem_cons]
      unfold Has SameName
      refine ⟨by decide, by decide, nofun⟩
    intro y hy
    refine ⟨fun h => ?_, fun h => absurd h (this y hy)⟩
    simp only [eventOptions, List.mem_cons, List.not_mem_nil, or_false] at hy
    rcases hy with rfl | rfl <;> exact absurd (show false = true from h) (by decide)
  · intro h
    exact absurd ⟨"Text".toList, by decide, rfl⟩ h

theorem plain_style_fits : StyleFits usualStyle plainStyle := by
  refine ⟨⟨?_, ?_⟩, ⟨?_, ?_⟩, ⟨?_, ?_⟩, rfl, ?_, ?_⟩
  · simp only [styleFields, List.forall_mem_cons]
    refine ⟨?_, ?_, ?_, ?_, ?_, ?_, ?_, ?_, ?_, ?_, ?_, ?_, ?_, ?_, ?_, ?_, ?_, ?_, ?_, ?_, ?_, ?_, ?_, nofun⟩ <;>
      exact Builders.plain_of (by decide)
  · simp only [styleOptions, List.forall_mem_cons]
    exact ⟨nofun, nofun, nofun, nofun⟩
  · simp only [styleFields, List.forall_mem_cons]
    refine ⟨?_, ?_, ?_, ?_, ?_, ?_, ?_, ?_, ?_, ?_, ?_, ?_, ?_, ?_, ?_, ?_, ?_, ?_, ?_, ?_, ?_, ?_, ?_, nofun⟩ <;> decide
  · simp only [styleOptions, List.forall_mem_cons]
    exact ⟨nofun, nofun, nofun, nofun⟩
  · simp only [styleFields, List.forall_mem_cons]
    refine ⟨?_, ?_, ?_, ?_, ?_, ?_, ?_, ?_, ?_, ?_, ?_, ?_, ?_, ?_, ?_, ?_, ?_, ?_, ?_, ?_, ?_, ?_, ?_, nofun⟩ <;> decide
  · simp only [styleOptions, List.forall_mem_cons]
    exact ⟨nofun, nofun, nofun, nofun⟩
  · intro y hy h
    exact absurd ⟨y.1, List.mem_map.2 ⟨y, hy, rfl⟩, rfl⟩ h
  · have : ∀ y ∈ styleOptions, ¬ Has usualStyle y.1 := by
      simp only [styleOptions, List.forall_mem_cons]
      unfold Has SameName
      refine ⟨by decide, by decide, by decide, nofun⟩
    intro y hy
    refine ⟨fun h => ?_, fun h => absurd h (this y hy)⟩
    simp only [styleOptions, List.mem_cons, List.not_mem_nil, or_false] at hy
    rcases hy with rfl | rfl | rfl <;> exact absurd h (by decide)

/-- The script with these properties and dialogues. -/
def scriptOf (fields : List (Str × Str)) (xs : List (Str × Str × Str)) : Script :=
  { version := .ass4plus, issues := [], stylesFmt := some usualStyle, eventsFmt := some usualEvent,
    sections := [.info fields ⟨0, 0, 0, 0⟩, .styles [(plainStyle, ⟨0, 0, 0, 0⟩)],
      .events (xs.map (fun x => (said x.1 x.2.1 x.2.2, ⟨0, 0, 0, 0⟩)))] }

theorem line_said (a b t : Str) : (said a b t).toAssWith usualEvent ++ ['\n'] = eventLine ⟨a, b, t⟩ := by
  have e : (said a b t).toAssWith usualEvent = FormatDoc.dialogue a b t :=
    (FormatDoc.toAss_usual _).trans (Eq.trans (by unfold Ast.Event.toAss said; exact rfl) (FormatDoc.dialogue_join a b t))
  rw [e]
  unfold FormatDoc.dialogue eventLine
  simp only [List.append_assoc, List.cons_append]

theorem toAss_script (head : Str) (fields : List (Str × Str)) (xs : List (Str × Str × Str))
    (hh : head = Parser.infoToAss fields ++ ['\n'] ++ (Parser.sectionToAss (some usualStyle) (some usualEvent) (.styles [(plainStyle, ⟨0, 0, 0, 0⟩)])) ++
      ['\n'] ++ "[Events]\n".toList ++ Parser.formatToAss (some usualEvent)) :
    toAss (scriptOf fields xs) = head ++ (xs.map fun x => (⟨x.1, x.2.1, x.2.2⟩ : Entry)).flatMap eventLine := by
  have ev : ∀ xs : List (Str × Str × Str), (xs.map (fun x => (said x.1 x.2.1 x.2.2, (⟨0, 0, 0, 0⟩ : Span)))).flatMap
      (fun e => e.1.toAssWith usualEvent ++ ['\n']) = (xs.map fun x => (⟨x.1, x.2.1, x.2.2⟩ : Entry)).flatMap eventLine := by
    intro xs
    induction xs with
    | nil => rfl
    | cons x l ih => simp only [List.map_cons, List.flatMap_cons, ih, line_said]
  rw [← ev, hh]
  generalize hst : Parser.sectionToAss (some usualStyle) (some usualEvent) (.styles [(plainStyle, ⟨0, 0, 0, 0⟩)]) = st
  have e : toAss (scriptOf fields xs) = Parser.infoToAss fields ++ ['\n'] ++
      (Parser.sectionToAss (some usualStyle) (some usualEvent) (.styles [(plainStyle, ⟨0, 0, 0, 0⟩)]) ++
      ['\n'] ++ ("[Events]\n".toList ++ Parser.formatToAss (some usualEvent) ++
        (xs.map (fun x => (said x.1 x.2.1 x.2.2, (⟨0, 0, 0, 0⟩ : Span)))).flatMap (fun e => e.1.toAssWith usualEvent ++ ['\n']))) := rfl
  rw [e, hst]
  simp only [List.append_assoc]

theorem script_parsed {head : Str} {fields : List (Str × Str)} {xs : List (Str × Str × Str)} (hf : ∀ f ∈ fields, FieldOk f)
    (hok : ∀ x ∈ xs, Fits x)
    (hh : head = Parser.infoToAss fields ++ ['\n'] ++ (Parser.sectionToAss (some usualStyle) (some usualEvent) (.styles [(plainStyle, ⟨0, 0, 0, 0⟩)])) ++
      ['\n'] ++ "[Events]\n".toList ++ Parser.formatToAss (some usualEvent))
    (hsize : Verif.Spec.Script.size (head ++ (xs.map fun x => (⟨x.1, x.2.1, x.2.2⟩ : Entry)).flatMap eventLine) ≤ 50 * 1024 * 1024) :
    ∃ s, parse (head ++ (xs.map fun x => (⟨x.1, x.2.1, x.2.2⟩ : Entry)).flatMap eventLine) = some s ∧
      s.sections.map content = [.info fields, .styles [plainStyle], .events (xs.map fun x => said x.1 x.2.1 x.2.2)] ∧
      Verif.Spec.Script.unknowns s.issues = [] := by
  have e := toAss_script head fields xs hh
  rw [← e] at hsize ⊢
  have hw : ∀ y ∈ (scriptOf fields xs).sections, Writable (scriptOf fields xs).stylesFmt (scriptOf fields xs).eventsFmt (content y) := by
    simp only [scriptOf, List.forall_mem_cons]
    refine ⟨hf, ⟨?_, ?_⟩, ⟨?_, ?_⟩, nofun⟩
    · intro f hf; cases hf; exact Parser.usual_style_ok
    · intro s hs
      simp at hs; subst hs
      exact plain_style_fits
    · intro f hf; cases hf; exact Parser.usual_event_ok
    · intro y hy
      simp at hy
      obtain ⟨a, b, t, hx, rfl⟩ := hy
      exact said_fits (hok _ hx)
  obtain ⟨s, h1, h2, h3, _⟩ := Parser.C75_round_trip_partial hw hsize
  refine ⟨s, h1, ?_, h3⟩
  rw [h2]
  simp [scriptOf, content]

/-! ## Texts -/

section
open Verif.Spec.SrtDoc (Tok line text Carried Canonical)

theorem tok_ends (t : Tok) : (∃ c, t = .ch c) ∨ (t.ass.head? = some '{' ∧ t.ass.getLast? = some '}') := by
  cases t
  · exact .inl ⟨_, rfl⟩
  all_goals exact .inr (by decide)

theorem tok_ne (t : Tok) : t.ass ≠ [] := by cases t <;> simp [Tok.ass]

theorem line_ne {l : List Tok} (h : l ≠ []) : line l ≠ [] := by
  cases l with
  | nil => exact absurd rfl h
  | cons t r => simp [line, tok_ne]

theorem line_head {l : List Tok} (h : Carried l) : ∀ c, (line l).head? = some c → ¬ White c := by
  intro c hc
  cases l with
  | nil => exact absurd rfl h.nonempty
  | cons t r =>
    have : (line (t :: r)).head? = t.ass.head? := by
      simp only [line, List.flatMap_cons, List.head?_append]
      cases e : t.ass with
      | nil => exact absurd e (tok_ne t)
      | cons => rfl
    rw [this] at hc
    rcases tok_ends t with ⟨d, rfl⟩ | ⟨e, _⟩
    · simp [Tok.ass] at hc
      subst hc
      exact h.first _ rfl
    · rw [e] at hc
      cases hc
      exact FormatDoc.not_white_of (by decide)

theorem line_last {l : List Tok} (h : Carried l) : ∀ c, (line l).getLast? = some c → ¬ White c := by
  intro c hc
  obtain ⟨r, t, rfl⟩ : ∃ r t, l = r ++ [t] := ⟨l.dropLast, l.getLast h.nonempty, (List.dropLast_concat_getLast h.nonempty).symm⟩
  have : (line (r ++ [t])).getLast? = t.ass.getLast? := by
    simp only [line, List.flatMap_append, List.flatMap_cons, List.flatMap_nil, List.append_nil, List.getLast?_append]
    rw [List.getLast?_eq_some_getLast (tok_ne t)]
    rfl
  rw [this] at hc
  rcases tok_ends t with ⟨d, rfl⟩ | ⟨_, e⟩
  · simp [Tok.ass] at hc
    subst hc
    exact h.last _ (by simp)
  · rw [e] at hc
    cases hc
    exact FormatDoc.not_white_of (by decide)

theorem line_flat {l : List Tok} (h : Carried l) : '\n' ∉ line l := by
  intro hm
  obtain ⟨t, ht, hc⟩ := List.mem_flatMap.1 hm
  cases t with
  | ch c =>
    simp [Tok.ass] at hc
    exact (h.chars c ht).1 hc.symm
  | _ => revert hc; decide

theorem text_fits : ∀ {L : List (List Tok)}, (∀ l ∈ L, Carried l) → Trimmed (text L) ∧ '\n' ∉ text L
  | [], _ => ⟨⟨nofun, nofun⟩, nofun⟩
  | [l], h => ⟨⟨line_head (h l (by simp)), line_last (h l (by simp))⟩, line_flat (h l (by simp))⟩
  | l :: m :: r, h => by
    have hl := h l (by simp)
    obtain ⟨⟨_, i2⟩, i3⟩ := text_fits (L := m :: r) (fun x hx => h x (List.mem_cons_of_mem _ hx))
    have ne : text (m :: r) ≠ [] := by
      have := line_ne (h m (by simp)).nonempty
      cases r <;> simp [text, this]
    refine ⟨⟨?_, ?_⟩, ?_⟩
    · intro c hc
      have : (text (l :: m :: r)).head? = (line l).head? := by
        simp only [text, List.append_assoc, List.head?_append]
        cases e : line l with
        | nil => exact absurd e (line_ne hl.nonempty)
        | cons => rfl
      rw [this] at hc
      exact line_head hl c hc
    · intro c hc
      have : (text (l :: m :: r)).getLast? = (text (m :: r)).getLast? := by
        show (line l ++ "\\N".toList ++ text (m :: r)).getLast? = _
        rw [List.getLast?_append, List.getLast?_eq_some_getLast ne]
        rfl
      rw [this] at hc
      exact i2 c hc
    · show '\n' ∉ line l ++ "\\N".toList ++ text (m :: r)
      simp only [List.mem_append, not_or]
      exact ⟨⟨line_flat hl, by decide⟩, i3⟩

theorem canonical_fits {x : Str} (h : Canonical x) : Plain x ∧ '\n' ∉ x := by
  obtain ⟨h, m, s, cs, _, hm, hs, hc, rfl⟩ := h
  have := FormatDoc.ass_time_plain (t := ⟨h, m, s, cs * 10⟩) ⟨hm, hs, by show cs * 10 < 1000; omega⟩
  unfold Spec.FormatDoc.Time.ass at this
  rwa [Nat.mul_div_cancel _ (by decide)] at this

end

theorem events_dialogues (s : Script) :
    ((events s).filter (·.dialogue)).map (fun e => (e.start, e.fin, e.text)) = dialogues s := by
  unfold events dialogues
  generalize s.sections = l
  induction l with
  | nil => rfl
  | cons x r ih =>
    rw [List.flatMap_cons, List.flatMap_cons, List.filter_append, List.map_append, ih]
    congr 1
    cases x with
    | events l =>
      dsimp only
      clear ih
      induction l with
      | nil => rfl
      | cons e l ih =>
        simp only [List.map_cons, List.filter_cons]
        by_cases hk : e.1.kind = .dialogue
        · simp only [hk, decide_true, if_true, List.map_cons, ih]
        · simp only [hk, decide_false, Bool.false_eq_true, if_false, ih]
    | _ => rfl

theorem event_dialogue (s : Script) {e : Ev} (he : e ∈ events s) (hd : e.dialogue = true) : (e.start, e.fin, e.text) ∈ dialogues s := by
  rw [← events_dialogues]
  exact List.mem_map.2 ⟨e, List.mem_filter.2 ⟨he, hd⟩, rfl⟩

end Verif.Converter
