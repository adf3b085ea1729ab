import Verif.Lemmas.Converter
import Verif.Props.Update
/-!
# C146 — converting between formats
-/
namespace Verif.Props.Converter
open Verif Verif.Converter
open Verif.SrtDoc (Ev Entry)
open Verif.Parser (Script parse)
open Verif.Spec.RoundTrip
open Verif.Spec.Converter
open Verif.Spec.EventCmd (Trimmed)
open Verif.Spec.SrtDoc (Canonical Carried NotHeader Tok line text Lacks)
open Verif.Spec.FormatDoc (RawLine Eol file)

/-- **C146, extensions.** An extension names a format exactly if it is one of the format's, whatever letters are capitals; and the extension
given for a format names it. -/
theorem C146_extension (x : Str) (f : Format) :
    (fromExtension x = some f ↔ ∃ w ∈ names f, Spelled x w) ∧ fromExtension (extension f) = some f :=
  ⟨extension_iff x f, by cases f <;> decide⟩

example : fromExtension "WebVTT".toList = some .vtt := by decide
example : fromExtension "sub".toList = none := by decide

/-- **C146, files.** A file is read in the format that its path names, by what follows its last dot; if it names none, in the one that its
contents look like.  It is written in the format asked for; if none is asked for, in the one that the path names; if it names none, as ASS. -/
theorem C146_path (path s : Str) (strip : Bool) :
    (∀ f, Named path f → importFile path s = importAs s (some f) ∧ exportFile s path none strip = exportAs s f strip) ∧
    ((∀ f, ¬ Named path f) → importFile path s = importAs s none ∧ exportFile s path none strip = .ok s) ∧
    (∀ f, exportFile s path (some f) strip = exportAs s f strip) := by
  refine ⟨fun f h => ?_, fun h => ?_, fun f => rfl⟩
  · unfold importFile exportFile
    rw [(path_iff path f).2 h]
    exact ⟨rfl, rfl⟩
  · have : ofPath path = none := by
      cases e : ofPath path with
      | none => rfl
      | some f => exact absurd ((path_iff path f).1 e) (h f)
    unfold importFile exportFile
    rw [this]
    exact ⟨rfl, rfl⟩

example : Named "a.b/film.en.Srt".toList .srt :=
  ⟨"a.b/film.en".toList, "Srt".toList, rfl, by decide, "srt".toList, by decide, .capital (by decide) (.same (.same .nil))⟩

/-- **C146, contents.** What a text without a named format is taken for. -/
theorem C146_content (s : Str) :
    (fromContent s = .ass ↔ Occurs "[Script Info]".toList s ∨ Occurs "[Events]".toList s) ∧
    (fromContent s = .vtt ↔ ¬ Occurs "[Script Info]".toList s ∧ ¬ Occurs "[Events]".toList s ∧ ∃ t, s = "WEBVTT".toList ++ t) ∧
    (fromContent s = .srt ↔ ¬ Occurs "[Script Info]".toList s ∧ ¬ Occurs "[Events]".toList s ∧ (¬ ∃ t, s = "WEBVTT".toList ++ t) ∧
      Occurs "-->".toList s) ∧
    fromContent s ≠ .ssa := by
  unfold Occurs
  rw [← containsStr_iff, ← containsStr_iff, ← containsStr_iff, ← startsWith_iff]
  unfold fromContent
  generalize containsStr "[Script Info]".toList s = a
  generalize containsStr "[Events]".toList s = b
  generalize containsStr "-->".toList s = c
  generalize startsWith "WEBVTT".toList s = d
  revert a b c d
  decide

/-- **C146, ASS.** Scripts are taken and given as they are. -/
theorem C146_same (s : Str) (strip : Bool) :
    importAs s (some .ass) = some s ∧ importAs s (some .ssa) = some s ∧ exportAs s .ass strip = .ok s :=
  ⟨rfl, rfl, rfl⟩

/-! ## SRT and WebVTT -/

theorem info_srt (n : Bool) (title : Str) (ht : (!title.contains ',' && (title.head?.all (fun c => !isWs c)) && (title.getLast?.all (fun c => !isWs c))) = true)
    (hl : '\n' ∉ title) : ∀ f ∈ [("Title".toList, title), ("ScriptType".toList, "v4.00+".toList)] ++
     (if n then [("WrapStyle".toList, ['0']), ("PlayResX".toList, "640".toList), ("PlayResY".toList, "480".toList),
       ("ScaledBorderAndShadow".toList, "yes".toList)] else []), FieldOk f := by
  cases n
  · simp only [Bool.false_eq_true, if_false, List.append_nil, List.forall_mem_cons]
    exact ⟨FormatDoc.field_ok (by decide) ht ⟨⟨by decide, hl⟩, by decide⟩, FormatDoc.field_ok (by decide) (by decide) (by decide), nofun⟩
  · simp only [if_true, List.cons_append, List.nil_append, List.forall_mem_cons]
    refine ⟨FormatDoc.field_ok (by decide) ht ⟨⟨by decide, hl⟩, by decide⟩, ?_, ?_, ?_, ?_, ?_, nofun⟩ <;>
      exact FormatDoc.field_ok (by decide) (by decide) (by decide)

theorem plays_fits {P : List Tok → Prop} {x : Str × Str × Str} (h : Plays P x) : Fits x := by
  obtain ⟨h1, h2, L, h3, h4⟩ := h
  obtain ⟨t1, t2⟩ := text_fits fun l hl => (h3 l hl).1
  exact ⟨canonical_fits h1, canonical_fits h2, by rw [h4]; exact t1, by rw [h4]; exact t2⟩

theorem entry_map (l : List Ev) : l.map (fun e => (⟨e.start, e.fin, e.text⟩ : Entry)) =
    (l.map fun e => (e.start, e.fin, e.text)).map fun x => ⟨x.1, x.2.1, x.2.2⟩ := by
  rw [List.map_map]
  rfl

theorem stamp_no {sep : Char} (hs : sep = ',' ∨ sep = '.') {x : Str} (h : Canonical x) {y : Str} {f : Str → Outcome Str}
    (hf : ∀ h m s cs, h < 2 ^ 32 → m < 100 → s < 100 → cs < 100 → f (Spec.Fmt.assStamp h m s cs) = .ok (Spec.Fmt.stamp sep h m s (cs * 10)))
    (hy : f x = .ok y) : '[' ∉ y := by
  obtain ⟨h, m, s, cs, hh, hm, hs', hc, rfl⟩ := h
  rw [hf h m s cs hh (by omega) (by omega) hc, Formats.stamp_eq (by omega) (by omega) (by omega)] at hy
  cases hy
  simp only [List.mem_append, List.mem_cons, not_or]
  have n : '['.isDigit = false := by decide
  refine ⟨⟨⟨Formats.showPad_no _ _ _ n, by decide, Formats.showPad_no _ _ _ n⟩, by decide, Formats.showPad_no _ _ _ n⟩, ?_, Formats.showPad_no _ _ _ n⟩
  rcases hs with rfl | rfl <;> decide

theorem join_no {c : Char} (hc : c ≠ '\n') : ∀ {l : List Str}, (∀ x ∈ l, c ∉ x) → c ∉ joinStr ['\n'] l
  | [], _ => nofun
  | [x], h => h x (by simp)
  | x :: y :: r, h => by
    show c ∉ x ++ ['\n'] ++ joinStr ['\n'] (y :: r)
    simp only [List.mem_append, not_or]
    exact ⟨⟨h x (by simp), by simpa using hc⟩, join_no hc fun z hz => h z (List.mem_cons_of_mem _ hz)⟩

theorem mem_text {c : Char} {t : Tok} (ht : c ∈ t.ass) : ∀ {L : List (List Tok)} {l : List Tok}, l ∈ L → t ∈ l → c ∈ text L
  | [l], _, h, hl => by
    rw [List.mem_singleton] at h
    subst h
    exact List.mem_flatMap.2 ⟨t, hl, ht⟩
  | l :: m :: r, l', h, hl => by
    show c ∈ line l ++ "\\N".toList ++ text (m :: r)
    rcases List.mem_cons.1 h with rfl | h
    · exact List.mem_append_left _ (List.mem_append_left _ (List.mem_flatMap.2 ⟨t, hl, ht⟩))
    · exact List.mem_append_right _ (mem_text ht h hl)

theorem body_no {L : List (List Tok)} (h : '[' ∉ text L) : '[' ∉ SrtDoc.body L := by
  refine join_no (by decide) fun x hx hc => ?_
  obtain ⟨l, hl, rfl⟩ := List.mem_map.1 hx
  obtain ⟨t, ht, hc⟩ := List.mem_flatMap.1 hc
  cases t with
  | ch c =>
    simp [SrtDoc.html] at hc
    subst hc
    exact h (mem_text (t := .ch '[') (by simp [Tok.ass]) hl ht)
  | _ => revert hc; decide

theorem srt_no : ∀ (l : List Ev) (i : Nat) {out : Str}, (∀ e ∈ l, e.dialogue = true → Plays (fun _ => True) (e.start, e.fin, e.text) ∧ '[' ∉ e.text) →
    SrtDoc.exportSrtFrom false i l = .ok out → '[' ∉ out ∧ (out = [] ∨ ∃ c, out.head? = some c ∧ c.isDigit = true) ∧
      ((∃ e ∈ l, e.dialogue = true) → Occurs "-->".toList out)
  | [], i, out, _, ho => by
    cases ho
    exact ⟨nofun, .inl rfl, fun ⟨_, h, _⟩ => nomatch h⟩
  | e :: l, i, out, h, ho => by
    rw [SrtDoc.exportSrtFrom] at ho
    by_cases hd : e.dialogue = true
    · rw [if_pos hd] at ho
      obtain ⟨⟨h1, h2, L, h3, h4⟩, h5⟩ := h e (by simp) hd
      dsimp only at h1 h2 h4
      cases ha : Formats.assTimeToSrt e.start with
      | err => rw [ha] at ho; cases ho
      | panic => rw [ha] at ho; cases ho
      | ok a =>
      cases hb : Formats.assTimeToSrt e.fin with
      | err => rw [ha, hb] at ho; cases ho
      | panic => rw [ha, hb] at ho; cases ho
      | ok b =>
      rw [ha, hb] at ho
      dsimp only at ho
      cases hr : SrtDoc.exportSrtFrom false (i + 1) l with
      | err => rw [hr] at ho; cases ho
      | panic => rw [hr] at ho; cases ho
      | ok rest =>
      rw [hr] at ho
      cases ho
      have ih := srt_no l (i + 1) (fun e he => h e (List.mem_cons_of_mem _ he)) hr
      refine ⟨?_, .inr ?_, fun _ => ⟨showNat i ++ '\n' :: a ++ [' '], ' ' :: b ++ '\n' :: SrtDoc.bodyText false e.text ++ "\n\n".toList ++ rest, by simp⟩⟩
      · rw [h4, SrtDoc.bodyText_format fun l hl => (h3 l hl).1]
        simp only [List.mem_append, List.mem_cons, not_or]
        refine ⟨⟨⟨⟨⟨⟨Formats.showNat_no _ _ (by decide), by decide, stamp_no (.inl rfl) h1 C31_export ha⟩, by decide⟩,
          stamp_no (.inl rfl) h2 C31_export hb⟩, by decide, body_no (h4 ▸ h5)⟩, by decide⟩, ih.1⟩
      · cases e1 : showNat i with
        | nil => exact absurd e1 (showNat_ne_nil _)
        | cons d r => exact ⟨d, rfl, showNat_digits i d (by rw [e1]; simp)⟩
    · rw [if_neg hd] at ho
      obtain ⟨i1, i2, i3⟩ := srt_no l i (fun e he => h e (List.mem_cons_of_mem _ he)) ho
      refine ⟨i1, i2, fun ⟨x, hx, hxd⟩ => ?_⟩
      rcases List.mem_cons.1 hx with rfl | hx
      · exact absurd hxd hd
      · exact i3 ⟨x, hx, hxd⟩

theorem vtt_no : ∀ (l : List Ev) {out : Str}, (∀ e ∈ l, e.dialogue = true → Plays NotHeader (e.start, e.fin, e.text) ∧ '[' ∉ e.text) →
    SrtDoc.exportVttEvents false l = .ok out → '[' ∉ out
  | [], out, _, ho => by cases ho; exact nofun
  | e :: l, out, h, ho => by
    rw [SrtDoc.exportVttEvents] at ho
    by_cases hd : e.dialogue = true
    · rw [if_pos hd] at ho
      obtain ⟨⟨h1, h2, L, h3, h4⟩, h5⟩ := h e (by simp) hd
      dsimp only at h1 h2 h4
      cases ha : Formats.assTimeToWebvtt e.start with
      | err => rw [ha] at ho; cases ho
      | panic => rw [ha] at ho; cases ho
      | ok a =>
      cases hb : Formats.assTimeToWebvtt e.fin with
      | err => rw [ha, hb] at ho; cases ho
      | panic => rw [ha, hb] at ho; cases ho
      | ok b =>
      rw [ha, hb] at ho
      dsimp only at ho
      cases hr : SrtDoc.exportVttEvents false l with
      | err => rw [hr] at ho; cases ho
      | panic => rw [hr] at ho; cases ho
      | ok rest =>
      rw [hr] at ho
      cases ho
      rw [h4, SrtDoc.bodyText_format fun l hl => (h3 l hl).1]
      simp only [List.mem_append, List.mem_cons, not_or]
      exact ⟨⟨⟨⟨⟨stamp_no (.inr rfl) h1 C32_export ha, by decide⟩, stamp_no (.inr rfl) h2 C32_export hb⟩, by decide, body_no (h4 ▸ h5)⟩,
        by decide⟩, vtt_no l (fun e he => h e (List.mem_cons_of_mem _ he)) hr⟩
    · rw [if_neg hd] at ho
      exact vtt_no l (fun e he => h e (List.mem_cons_of_mem _ he)) ho

theorem no_head {s : Str} (h : '[' ∉ s) : ¬ Occurs "[Script Info]".toList s ∧ ¬ Occurs "[Events]".toList s := by
  constructor <;> rintro ⟨a, b, rfl⟩ <;> exact h (by simp)

/-- **C146, detection.** Such a file is told from its contents, so that it may be imported without naming its format, if no text has an opening
square bracket in it, and (for SRT) there is a dialogue at all.
Missing: texts with an opening bracket, for which detection may fail (`C146_told_violated`). -/
theorem C146_told_partial {d : Str} {s : Script} (hp : parse d = some s) (hb : ∀ x ∈ dialogues s, '[' ∉ x.2.2) {out : Str} :
    ((∀ x ∈ dialogues s, Plays (fun _ => True) x) → dialogues s ≠ [] → exportAs d .srt false = .ok out →
      importAs out none = importAs out (some .srt)) ∧
    ((∀ x ∈ dialogues s, Plays NotHeader x) → exportAs d .vtt false = .ok out → importAs out none = importAs out (some .vtt)) := by
  constructor
  · intro h hne ho
    have ho : SrtDoc.exportSrtFrom false 1 (events s) = .ok out := by
      unfold exportAs at ho
      rw [hp] at ho
      exact ho
    obtain ⟨n1, n2, n3⟩ := srt_no (events s) 1 (fun e he hd => ⟨h _ (event_dialogue s he hd), hb _ (event_dialogue s he hd)⟩) ho
    have hex : ∃ e ∈ events s, e.dialogue = true := by
      rw [← events_dialogues] at hne
      have hne : (events s).filter (·.dialogue) ≠ [] := fun e => hne (by rw [e]; rfl)
      obtain ⟨e, he⟩ := List.exists_mem_of_ne_nil _ hne
      exact ⟨e, (List.mem_filter.1 he).1, (List.mem_filter.1 he).2⟩
    have := (C146_content out).2.2.1.2 ⟨(no_head n1).1, (no_head n1).2, ?_, n3 hex⟩
    · show (match fromContent out with | .ass | .ssa => some out | .srt => importSrt out | .vtt => importVtt out | .txt => some (importPlain out)) = _
      rw [this]
      rfl
    · rintro ⟨t, rfl⟩
      rcases n2 with n2 | ⟨c, h1, h2⟩
      · cases n2
      · cases h1
        exact absurd h2 (by decide)
  · intro h ho
    have ho : SrtDoc.exportVtt false (events s) = .ok out := by
      unfold exportAs at ho
      rw [hp] at ho
      exact ho
    unfold SrtDoc.exportVtt at ho
    cases hv : SrtDoc.exportVttEvents false (events s) with
    | err => rw [hv] at ho; cases ho
    | panic => rw [hv] at ho; cases ho
    | ok v =>
    rw [hv] at ho
    cases ho
    have n := vtt_no (events s) (fun e he hd => ⟨h _ (event_dialogue s he hd), hb _ (event_dialogue s he hd)⟩) hv
    have n1 : '[' ∉ "WEBVTT\n\n".toList ++ v := by
      rw [List.mem_append, not_or]
      exact ⟨by decide, n⟩
    have := (C146_content ("WEBVTT\n\n".toList ++ v)).2.1.2 ⟨(no_head n1).1, (no_head n1).2, ⟨"\n\n".toList ++ v, by simp⟩⟩
    show (match fromContent _ with | .ass | .ssa => some _ | .srt => importSrt _ | .vtt => importVtt _ | .txt => some (importPlain _)) = _
    rw [this]
    rfl

/-- **C146, SRT.** A document whose dialogues can be carried by SRT, exported to SRT and imported again, gives a script with a title, one
style and exactly these dialogues, in order, with their times and texts.  Missing: what SRT cannot carry, see C63. -/
theorem C146_srt_partial {d : Str} {s : Script} (hp : parse d = some s) (h : ∀ x ∈ dialogues s, Plays (fun _ => True) x) :
    ∃ out t, exportAs d .srt false = .ok out ∧ importAs out (some .srt) = some t ∧
      (Spec.Script.size t ≤ 50 * 1024 * 1024 → ∃ s', parse t = some s' ∧ Spec.Script.unknowns s'.issues = [] ∧
        s'.sections.map content = imported "Imported from SRT".toList true (dialogues s)) := by
  obtain ⟨out, o1, o2⟩ := C63_srt_roundtrip_partial (events s) (fun e he hd => by
    obtain ⟨h1, h2, L, h3, h4⟩ := h _ (event_dialogue s he hd)
    exact ⟨h1, h2, L, fun l hl => (h3 l hl).1, h4⟩)
  rw [entry_map, events_dialogues] at o2
  refine ⟨out, head "Imported from SRT".toList video ++ ((dialogues s).map fun x => (⟨x.1, x.2.1, x.2.2⟩ : Entry)).flatMap eventLine,
    ?_, ?_, fun hs => ?_⟩
  · show (match parse d with | some s => SrtDoc.exportSrt false (events s) | none => .err) = _
    rw [hp]
    exact o1
  · show importSrt out = _
    unfold importSrt
    rw [o2]
    rfl
  · obtain ⟨s', p1, p2, p3⟩ := script_parsed (info_srt true "Imported from SRT".toList (by decide) (by decide))
      (fun x hx => plays_fits (h x hx)) (by decide +kernel) hs
    exact ⟨s', p1, p3, p2⟩

/-- **C146, WebVTT.** The same for WebVTT.
Missing: dialogues the format cannot carry (blank lines, arrows, angle brackets, strike out) and files with a byte order mark
(`C146_mark_violated`). -/
theorem C146_webvtt_partial {d : Str} {s : Script} (hp : parse d = some s) (h : ∀ x ∈ dialogues s, Plays NotHeader x) :
    ∃ out t, exportAs d .vtt false = .ok out ∧ importAs out (some .vtt) = some t ∧
      (Spec.Script.size t ≤ 50 * 1024 * 1024 → ∃ s', parse t = some s' ∧ Spec.Script.unknowns s'.issues = [] ∧
        s'.sections.map content = imported "Imported from WebVTT".toList true (dialogues s)) := by
  obtain ⟨out, o1, o2⟩ := C63_webvtt_roundtrip_partial (events s) (fun e he hd => h _ (event_dialogue s he hd))
  rw [entry_map, events_dialogues] at o2
  refine ⟨out, head "Imported from WebVTT".toList video ++ ((dialogues s).map fun x => (⟨x.1, x.2.1, x.2.2⟩ : Entry)).flatMap eventLine,
    ?_, ?_, fun hs => ?_⟩
  · show (match parse d with | some s => SrtDoc.exportVtt false (events s) | none => .err) = _
    rw [hp]
    exact o1
  · show importVtt out = _
    unfold importVtt
    rw [o2]
    rfl
  · obtain ⟨s', p1, p2, p3⟩ := script_parsed (info_srt true "Imported from WebVTT".toList (by decide) (by decide))
      (fun x hx => plays_fits (h x hx)) (by decide +kernel) hs
    exact ⟨s', p1, p3, p2⟩

/-! ## Plain text -/

theorem joined_eq (sep : Str) : ∀ l : List Str, joinStr sep l = joined sep l
  | [] => rfl
  | [_] => rfl
  | a :: b :: r => by
    show a ++ sep ++ joinStr sep (b :: r) = a ++ sep ++ joined sep (b :: r)
    rw [joined_eq sep (b :: r)]

theorem joined_line {ls : List Str} (h : ∀ l ∈ ls, RawLine l) : '\n' ∉ joined "\\N".toList ls := by
  match ls, h with
  | [], _ => exact nofun
  | [l], h => exact (h l (by simp)).1
  | l :: m :: r, h =>
    show '\n' ∉ l ++ "\\N".toList ++ joined "\\N".toList (m :: r)
    simp only [List.mem_append, not_or]
    exact ⟨⟨(h l (by simp)).1, by decide⟩, joined_line fun x hx => h x (List.mem_cons_of_mem _ hx)⟩

/-- **C146, plain text.** A text file becomes a script with one dialogue of five seconds, whose lines are those of the file.  Missing: white
space at the ends of the file (see `C146_plain_violated`). -/
theorem C146_plain_partial {eol : Str} (he : Eol eol) {ls : List Str} (h : ∀ l ∈ ls, RawLine l) (ht : Trimmed (joined "\\N".toList ls)) :
    ∃ t, importAs (file eol ls) (some .txt) = some t ∧
      (Spec.Script.size t ≤ 50 * 1024 * 1024 → ∃ s, parse t = some s ∧ Spec.Script.unknowns s.issues = [] ∧
        s.sections.map content = imported "Imported from Plain Text".toList false
          [("0:00:00.00".toList, "0:00:05.00".toList, joined "\\N".toList ls)]) := by
  have z : Spec.EventCmd.Plain "0:00:00.00".toList ∧ '\n' ∉ "0:00:00.00".toList := ⟨Builders.plain_of (by decide), by decide⟩
  have f : Spec.EventCmd.Plain "0:00:05.00".toList ∧ '\n' ∉ "0:00:05.00".toList := ⟨Builders.plain_of (by decide), by decide⟩
  refine ⟨_, rfl, fun hs => ?_⟩
  rw [importPlain, FormatDoc.lines_file he h, joined_eq] at hs ⊢
  have e : ∀ x : Str × Str × Str, eventLine ⟨x.1, x.2.1, x.2.2⟩ = ([x].map fun x => (⟨x.1, x.2.1, x.2.2⟩ : Entry)).flatMap eventLine := by
    intro x; simp
  rw [e ("0:00:00.00".toList, "0:00:05.00".toList, joined "\\N".toList ls)] at hs ⊢
  obtain ⟨s, p1, p2, p3⟩ := script_parsed (info_srt false "Imported from Plain Text".toList (by decide) (by decide))
    (xs := [("0:00:00.00".toList, "0:00:05.00".toList, joined "\\N".toList ls)])
    (fun x hx => by
      rw [List.mem_singleton] at hx
      subst hx
      exact ⟨z, f, ht, joined_line h⟩)
    (by decide +kernel) hs
  exact ⟨s, p1, p3, p2⟩

theorem lacks_break {l : Str} (h : '\\' ∉ l) : Lacks "\\N".toList l := by
  rintro a b rfl
  exact h (by simp)

theorem break_joined : ∀ {ls : List Str}, (∀ l ∈ ls, Lacks "\\N".toList l) → ls ≠ [] →
    SrtDoc.breakLines (joined "\\N".toList ls) ++ ['\n'] = file ['\n'] ls
  | [l], h, _ => by
    show replaceAll _ _ l ++ ['\n'] = _
    rw [replaceAll_lacks (h l (by simp))]
    simp [file]
  | l :: m :: r, h, _ => by
    have e : joined "\\N".toList (l :: m :: r) = l ++ '\\' :: 'N' :: joined "\\N".toList (m :: r) := by simp [joined]
    rw [e, SrtDoc.breakLines_cons (h l (by simp)), List.append_assoc, List.cons_append,
      break_joined (fun x hx => h x (List.mem_cons_of_mem _ hx)) (by simp)]
    simp [file]

/-- The lines written for dialogues with these lines. -/
theorem export_lines : ∀ (l : List Ev) (K : List (List Str)), (l.filter (·.dialogue)).map (·.text) = K.map (joined "\\N".toList) →
    (∀ ls ∈ K, ls ≠ [] ∧ ∀ x ∈ ls, Lacks "\\N".toList x) → exportPlain false l = file ['\n'] K.flatten
  | [], K, h, _ => by
    rw [List.filter_nil, List.map_nil] at h
    have : K = [] := List.map_eq_nil_iff.1 h.symm
    subst this
    rfl
  | e :: l, K, h, hk => by
    rw [exportPlain]
    by_cases hd : e.dialogue = true
    · rw [List.filter_cons, if_pos hd, List.map_cons] at h
      cases K with
      | nil => cases h
      | cons ls K =>
        rw [List.map_cons, List.cons.injEq] at h
        rw [export_lines l K h.2 (fun x hx => hk x (List.mem_cons_of_mem _ hx))]
        simp only [hd, if_true, Bool.false_eq_true, if_false]
        obtain ⟨k1, k2⟩ := hk ls (by simp)
        rw [h.1, break_joined k2 k1]
        simp [file]
    · rw [List.filter_cons, if_neg hd] at h
      simp only [hd, Bool.false_eq_true, if_false, List.nil_append]
      exact export_lines l K h hk

/-- **C146, plain text.** Exporting to plain text writes the lines of all dialogues, in order, and nothing else. -/
theorem C146_lines {d : Str} {s : Script} (hp : parse d = some s) (K : List (List Str))
    (h : (dialogues s).map (·.2.2) = K.map (joined "\\N".toList)) (hk : ∀ ls ∈ K, ls ≠ [] ∧ ∀ x ∈ ls, Lacks "\\N".toList x) :
    exportAs d .txt false = .ok (file ['\n'] K.flatten) := by
  unfold exportAs
  rw [hp]
  rw [← events_dialogues, List.map_map] at h
  exact congrArg Outcome.ok (export_lines _ K h hk)

theorem dialogues_content (s : Script) : dialogues s = (s.sections.map content).flatMap fun
    | .events l => (l.filter fun e => e.kind = .dialogue).map fun e => (e.start, e.stop, e.text)
    | _ => [] := by
  unfold dialogues
  generalize s.sections = l
  induction l with
  | nil => rfl
  | cons x r ih =>
    rw [List.map_cons, List.flatMap_cons, List.flatMap_cons, ih]
    congr 1
    cases x with
    | events l =>
      simp only [content]
      rw [List.filter_map, List.map_map]
      rfl
    | _ => rfl

/-- **C146, plain text, there and back.** A text file without backslashes, its lines ended by line feeds, imported and exported again is the
same file.
Missing: files with backslashes or with white space at either end (`C146_plain_violated`). -/
theorem C146_plain_back_partial {ls : List Str} (hne : ls ≠ []) (h : ∀ l ∈ ls, RawLine l ∧ '\\' ∉ l) (ht : Trimmed (joined "\\N".toList ls))
    {t : Str} (hi : importAs (file ['\n'] ls) (some .txt) = some t) (hs : Spec.Script.size t ≤ 50 * 1024 * 1024) :
    exportAs t .txt false = .ok (file ['\n'] ls) := by
  obtain ⟨t', i1, i2⟩ := C146_plain_partial (.inl rfl) (fun l hl => (h l hl).1) ht
  rw [hi] at i1
  cases i1
  obtain ⟨s, p1, _, p3⟩ := i2 hs
  have hd : dialogues s = [("0:00:00.00".toList, "0:00:05.00".toList, joined "\\N".toList ls)] := by
    rw [dialogues_content, p3]
    simp [imported, said]
  have := C146_lines p1 [ls] (by rw [hd]; rfl) (by
    intro x hx
    rw [List.mem_singleton] at hx
    subst hx
    exact ⟨hne, fun l hl => lacks_break (h l hl).2⟩)
  simpa using this

/-- **C146, disagreement.** White space at the beginning of a text file is lost, so that it is not the same file any more. -/
theorem C146_plain_violated : ∃ ls : List Str, ls ≠ [] ∧ (∀ l ∈ ls, RawLine l ∧ '\\' ∉ l) ∧
    ∃ t, importAs (file ['\n'] ls) (some .txt) = some t ∧ exportAs t .txt false = .ok "a\nb\n".toList ∧ file ['\n'] ls ≠ "a\nb\n".toList :=
  ⟨["  a".toList, "b".toList], by decide, by unfold RawLine; decide, _, rfl, by decide +kernel, by decide⟩

/-- **C146, disagreement.** An SRT file, just exported, in which `[Events]` is mentioned is taken for a script if its format is not named: none of
its dialogues is there. -/
theorem C146_told_violated : ∃ d out, exportAs d .srt false = .ok out ∧ importAs out none = some out ∧
    (∃ s, parse d = some s ∧ dialogues s = [("0:00:01.00".toList, "0:00:02.00".toList, "See [Events]".toList)]) ∧
    ∃ s, parse out = some s ∧ dialogues s = [] := by
  refine ⟨"[Events]\nFormat: Layer, Start, End, Style, Name, MarginL, MarginR, MarginV, Effect, Text\nDialogue: 0,0:00:01.00,0:00:02.00,Default,,0,0,0,,See [Events]\n".toList,
    "1\n00:00:01,000 --> 00:00:02,000\nSee [Events]\n\n".toList, by decide +kernel, by decide +kernel, ?_, ?_⟩
  · obtain ⟨s, h1, h2⟩ := of_parsed (src := "[Events]\nFormat: Layer, Start, End, Style, Name, MarginL, MarginR, MarginV, Effect, Text\nDialogue: 0,0:00:01.00,0:00:02.00,Default,,0,0,0,,See [Events]\n".toList)
      (P := fun s => decide (dialogues s = [("0:00:01.00".toList, "0:00:02.00".toList, "See [Events]".toList)])) (by decide +kernel)
    exact ⟨s, h1, of_decide_eq_true h2⟩
  · obtain ⟨s, h1, h2⟩ := of_parsed (src := "1\n00:00:01,000 --> 00:00:02,000\nSee [Events]\n\n".toList)
      (P := fun s => decide (dialogues s = [])) (by decide +kernel)
    exact ⟨s, h1, of_decide_eq_true h2⟩

/-- **C146, disagreement.** A WebVTT file that begins with a byte order mark is taken for SRT if its format is not named, and imported without an
error and without its cues. -/
theorem C146_mark_violated : importAs ("\uFEFFWEBVTT\n\n00:00:01.000 --> 00:00:02.000\nHi\n".toList) none =
    some (head "Imported from SRT".toList video) := by decide +kernel

/-! ## SSA -/

theorem split_first {p : Char} {ps : Str} (hp : p ∉ ps) (r : Str) : ∀ {a : Str}, Lacks (p :: ps) a →
    splitOnceStr (p :: ps) (a ++ (p :: ps) ++ r) = some (a, r)
  | [], _ => by
    have : stripPrefix (p :: ps) (p :: (ps ++ r)) = some r := stripPrefix_iff.2 rfl
    simp only [List.nil_append, List.cons_append]
    rw [splitOnceStr, this]
  | c :: a, h => by
    have hn : stripPrefix (p :: ps) (c :: (a ++ (p :: ps) ++ r)) = none := by
      cases hs : stripPrefix (p :: ps) (c :: (a ++ (p :: ps) ++ r)) with
      | none => rfl
      | some r' =>
        exfalso
        have e : (c :: a) ++ ((p :: ps) ++ r) = (p :: ps) ++ r' := by
          have := stripPrefix_iff.1 hs
          rw [← this]; simp
        rcases List.append_eq_append_iff.1 e with ⟨q, h1, h2⟩ | ⟨q, h1, h2⟩
        · cases q with
          | nil =>
            rw [List.append_nil] at h1
            exact h [] [] (by rw [← h1]; simp)
          | cons x q =>
            rw [List.cons_append, List.cons_append, List.cons.injEq] at h2
            rw [List.cons_append, List.cons.injEq] at h1
            apply hp
            rw [h1.2, ← h2.1] 
            simp
        · exact h [] q (by rw [h1]; simp)
    rw [List.cons_append, List.cons_append, splitOnceStr, hn]
    simp only
    rw [split_first hp r (a := a) (by
      intro x y hxy
      exact h (c :: x) y (by rw [hxy]; rfl))]

theorem replace_one {p : Char} {ps rep a b : Str} (hp : p ∉ ps) (ha : Lacks (p :: ps) a) (hb : Lacks (p :: ps) b) :
    replaceAll (p :: ps) rep (a ++ (p :: ps) ++ b) = a ++ rep ++ b := by
  rw [replaceAll_split (by simp) (split_first hp b ha), replaceAll_lacks hb]

/-- **C146, SSA.** Exporting to SSA changes the script type and the header of the styles, where each is there once, and nothing else.  Missing:
that these words stand where they have this meaning, see `C146_ssa_violated`. -/
theorem C146_ssa_partial {a b c : Str} (strip : Bool)
    (h1 : Lacks "[V4+ Styles]".toList (a ++ "ScriptType: v4.00+".toList ++ b)) (h2 : Lacks "[V4+ Styles]".toList c)
    (h3 : Lacks "ScriptType: v4.00+".toList a) (h4 : Lacks "ScriptType: v4.00+".toList (b ++ "[V4 Styles]".toList ++ c)) :
    exportAs (a ++ "ScriptType: v4.00+".toList ++ b ++ "[V4+ Styles]".toList ++ c) .ssa strip =
      .ok (a ++ "ScriptType: v4.00".toList ++ b ++ "[V4 Styles]".toList ++ c) := by
  have e1 : "[V4+ Styles]".toList = '[' :: "V4+ Styles]".toList := rfl
  have e2 : "ScriptType: v4.00+".toList = 'S' :: "criptType: v4.00+".toList := rfl
  show Outcome.ok (replaceAll "ScriptType: v4.00+".toList _ (replaceAll "[V4+ Styles]".toList _ _)) = _
  rw [e1] at h1 h2 ⊢
  rw [replace_one (by decide) h1 h2]
  have e : a ++ "ScriptType: v4.00+".toList ++ b ++ "[V4 Styles]".toList ++ c =
    a ++ "ScriptType: v4.00+".toList ++ (b ++ "[V4 Styles]".toList ++ c) := by simp only [List.append_assoc]
  rw [e]
  rw [e2] at h3 h4 ⊢
  rw [replace_one (by decide) h3 h4]
  simp only [List.append_assoc]

example : exportAs "[Script Info]\nScriptType: v4.00+\n[V4+ Styles]\n[Events]\n".toList .ssa false =
    .ok "[Script Info]\nScriptType: v4.00\n[V4 Styles]\n[Events]\n".toList :=
  C146_ssa_partial (a := "[Script Info]\n".toList) (b := "\n".toList) (c := "\n[Events]\n".toList) false
    (splitOnceStr_none.1 (by decide)) (splitOnceStr_none.1 (by decide)) (splitOnceStr_none.1 (by decide)) (splitOnceStr_none.1 (by decide))

/-- **C146, disagreement.** Exporting to SSA also changes these words in what is said. -/
theorem C146_ssa_violated : ∃ d out, exportAs d .ssa false = .ok out ∧
    (∃ s, parse d = some s ∧ (dialogues s).map (·.2.2) = ["See [V4+ Styles]".toList]) ∧
    ∃ s, parse out = some s ∧ (dialogues s).map (·.2.2) = ["See [V4 Styles]".toList] := by
  refine ⟨"[Events]\nDialogue: 0,0:00:01.00,0:00:02.00,Default,,0,0,0,,See [V4+ Styles]\n".toList,
    "[Events]\nDialogue: 0,0:00:01.00,0:00:02.00,Default,,0,0,0,,See [V4 Styles]\n".toList, by decide +kernel, ?_, ?_⟩
  · obtain ⟨s, h1, h2⟩ := of_parsed (src := "[Events]\nDialogue: 0,0:00:01.00,0:00:02.00,Default,,0,0,0,,See [V4+ Styles]\n".toList)
      (P := fun s => decide ((dialogues s).map (·.2.2) = ["See [V4+ Styles]".toList])) (by decide +kernel)
    exact ⟨s, h1, of_decide_eq_true h2⟩
  · obtain ⟨s, h1, h2⟩ := of_parsed (src := "[Events]\nDialogue: 0,0:00:01.00,0:00:02.00,Default,,0,0,0,,See [V4 Styles]\n".toList)
      (P := fun s => decide ((dialogues s).map (·.2.2) = ["See [V4 Styles]".toList])) (by decide +kernel)
    exact ⟨s, h1, of_decide_eq_true h2⟩

/-! ## A case -/

theorem sample_plays : Plays NotHeader ("0:00:01.00".toList, "0:00:02.50".toList, "{\\i1}Hi\\Nb".toList) := by
  refine ⟨⟨0, 0, 1, 0, by decide⟩, ⟨0, 0, 2, 50, by decide⟩, [[.i1, .ch 'H', .ch 'i'], [.ch 'b']], ?_, by decide⟩
  intro l hl
  simp only [List.mem_cons, List.not_mem_nil, or_false] at hl
  rcases hl with rfl | rfl
  · refine ⟨⟨by simp, by simp, ?_, ?_, splitOnceStr_none.1 (by decide), splitOnceStr_none.1 (by decide)⟩, ?_⟩
    · intro c hc; simp at hc; subst hc; rw [← SrtDoc.white_iff]; decide
    · intro c hc; simp at hc; rcases hc with rfl | rfl <;> decide
    · constructor <;> intro t e <;> simp [line, Tok.ass] at e
  · refine ⟨⟨by simp, ?_, ?_, ?_, splitOnceStr_none.1 (by decide), splitOnceStr_none.1 (by decide)⟩, ?_⟩
    · intro c hc; simp at hc; subst hc; rw [← SrtDoc.white_iff]; decide
    · intro c hc; simp at hc; subst hc; rw [← SrtDoc.white_iff]; decide
    · intro c hc; simp at hc; subst hc; decide
    · constructor <;> intro t e <;> simp [line, Tok.ass] at e

example : ∃ s, parse "[Events]\nDialogue: 0,0:00:01.00,0:00:02.50,A,,0,0,0,,{\\i1}Hi\\Nb\nComment: 0,,,A,,0,0,0,,x\n".toList = some s ∧
    dialogues s ≠ [] ∧ ∀ x ∈ dialogues s, Plays NotHeader x ∧ '[' ∉ x.2.2 := by
  obtain ⟨s, h1, h2⟩ := of_parsed (src := "[Events]\nDialogue: 0,0:00:01.00,0:00:02.50,A,,0,0,0,,{\\i1}Hi\\Nb\nComment: 0,,,A,,0,0,0,,x\n".toList)
    (P := fun s => decide (dialogues s = [("0:00:01.00".toList, "0:00:02.50".toList, "{\\i1}Hi\\Nb".toList)])) (by decide +kernel)
  have h2 := of_decide_eq_true h2
  refine ⟨s, h1, by rw [h2]; simp, fun x hx => ?_⟩
  rw [h2, List.mem_singleton] at hx
  subst hx
  exact ⟨sample_plays, by decide⟩

example : Trimmed (joined "\\N".toList ["a b".toList, [], " c".toList]) ∧ ∀ l ∈ ["a b".toList, [], " c".toList], RawLine l ∧ '\\' ∉ l :=
  ⟨(Builders.plain_of (by decide)).2, by unfold RawLine; decide⟩

end Verif.Props.Converter
