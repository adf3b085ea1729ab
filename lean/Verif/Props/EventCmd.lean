import Verif.Lemmas.EventCmd
import Verif.Lemmas.Time
import Verif.Lemmas.Formats
import Verif.Props.Time
/-!
# C36, C37, C65, C66 — commands on events

A command is run with a bound on its loop; `Does cmd d r` says that for some bound (and then for every
larger one) it finishes with outcome and document `r`.
-/
namespace Verif.Props
open Verif Verif.Doc Verif.Pos Verif.EventCmd
open Verif.Spec.EventCmd

/-- The command finishes with result `r`. -/
def Does (cmd : Nat → Doc → Option (Outcome Unit × Doc)) (d : Doc) (r : Outcome Unit × Doc) : Prop :=
  ∃ n, ∀ m, n ≤ m → cmd m d = some r

theorem does_of_ends {edit} {d : Doc} {h body : Str} {r} (hh : Head h) (hd : d.text = h ++ body)
    (he : Ends false edit d (byteLen h) 0 r) : Does (editEvents edit) d r := by
  obtain ⟨n, hn⟩ := editEvents_of_ends hh hd he
  exact ⟨n, fun m hm => editEvents_le hm hn⟩

theorem does_not {edit} {d : Doc} {r r' : Outcome Unit × Doc} (n : Nat) (h : editEvents edit n d = some r)
    (hne : r ≠ r') : ¬ Does (editEvents edit) d r' := by
  rintro ⟨m, hm⟩
  have a := editEvents_le (Nat.le_add_right n m) h
  have b := hm (n + m) (by omega)
  rw [a] at b
  injection b with b
  exact hne b

theorem format_timeText {n : Nat} (h : n < 2 ^ 32) : Verif.Spec.TimeText (Time.formatAssTime n) n :=
  ((C02_parse_accepts_iff _ _).1 (C01_time_roundtrip n h)).1

theorem timeText_parse {s : Str} {v : Nat} (h : Verif.Spec.TimeText s v) (hv : v < 2 ^ 32) : Time.parseAssTime s = .ok v :=
  (C02_parse_accepts_iff _ _).2 ⟨h, hv⟩

/-! ## Toggling -/

theorem toggleLine_toggled {r r' : Str} (h : Toggled r r') : toggleLine r = r' := by
  obtain ⟨x, ⟨rfl, rfl⟩ | ⟨rfl, rfl⟩⟩ := h
  · unfold toggleLine; rw [stripPrefix_append]
  · unfold toggleLine
    rw [stripPrefix_eq_none.2 (by intro t e; simp at e), stripPrefix_append]

theorem toggled_symm {r r' : Str} (h : Toggled r r') : Toggled r' r := by
  obtain ⟨x, ⟨a, b⟩ | ⟨a, b⟩⟩ := h
  · exact ⟨x, Or.inr ⟨b, a⟩⟩
  · exact ⟨x, Or.inl ⟨b, a⟩⟩

theorem toggled_event {r r' : Str} (h : Toggled r r') : IsEvent r := by
  obtain ⟨x, ⟨a, _⟩ | ⟨a, _⟩⟩ := h
  · exact ⟨x, Or.inl a⟩
  · exact ⟨x, Or.inr a⟩

theorem toggled_row {r r' : Str} (h : Toggled r r') (hr : '\n' ∉ r) : Row r := by
  refine ⟨hr, ?_, ?_⟩ <;> obtain ⟨x, ⟨rfl, _⟩ | ⟨rfl, _⟩⟩ := h <;> simp

theorem toggled_noNl {r r' : Str} (h : Toggled r r') (hr : '\n' ∉ r) : '\n' ∉ r' := by
  obtain ⟨x, ⟨rfl, rfl⟩ | ⟨rfl, rfl⟩⟩ := h
  · simp at hr ⊢; exact hr
  · simp at hr ⊢; exact hr

/-- **C36 (part).** Toggling one event switches exactly that event between dialogue and comment; every
other byte stays.  `h` is the text up to the format line, `rows` the lines before the event (with `k`
events among them), `t` the text after it.  Missing: a following line that begins with a character
outside ASCII (`C36_toggle_panics_violated`) and several events at once (`C36_toggle_all_violated`). -/
theorem C36_toggle_partial (d : Doc) (h r r' t : Str) (rows : List Str) (k : Nat) (hh : Head h)
    (hrows : ∀ r ∈ rows, Row r) (hc : Count rows k) (ht : Toggled r r') (hr : '\n' ∉ r)
    (htail : t = [] ∨ ∃ t', t = '\n' :: t' ∧ ∀ c, t'.head? = some c → c.toNat < 128)
    (hd : d.text = h ++ table rows ++ r ++ t) :
    ∃ d', Does (toggle [k]) d (.ok (), d') ∧ d'.text = h ++ table rows ++ r' ++ t := by
  have hsel : ∀ j, selected [k] j = decide (j = k) := by intro j; simp [selected]
  have key := ends_one (ag := false) (edit := toggleEdit [k]) (new := r') hd hrows hc (toggled_row ht hr) (toggled_event ht)
    (by rcases htail with h | ⟨t', rfl, _⟩
        · exact Or.inl h
        · exact Or.inr rfl)
    (by unfold toggleEdit; rw [hsel, toggleLine_toggled ht]; simp)
    (by intro j hj l; unfold toggleEdit; rw [hsel]; simp [hj])
    (by
      obtain ⟨x, ⟨rfl, rfl⟩ | ⟨rfl, rfl⟩⟩ := ht
      · rcases htail with rfl | ⟨t', rfl, hc⟩
        · left; simp only [byteLen_append]; simp; have : byteLen "Comment:".toList = 8 := by decide
          have : byteLen "Dialogue:".toList = 9 := by decide
          simp at *; omega
        · cases t' with
          | nil =>
            left; simp only [byteLen_append]
            have : byteLen "Comment:".toList = 8 := by decide
            have : byteLen "Dialogue:".toList = 9 := by decide
            have : byteLen ['\n'] = 1 := by decide
            omega
          | cons c cs =>
            right
            refine ⟨"Comment:".toList ++ x ++ ['\n', c], cs, by simp, ?_⟩
            simp only [byteLen_append, byteLen_cons]
            have h1 : byteLen "Comment:".toList = 8 := by decide
            have h2 : byteLen "Dialogue:".toList = 9 := by decide
            have h3 : '\n'.utf8Size = 1 := by decide
            have h4 : c.utf8Size = 1 := by rw [utf8Size_eq, if_pos (hc c rfl)]
            rw [h1, h2, h3, h4]; simp; omega
      · right
        refine ⟨"Dialogue:".toList ++ x, t, rfl, ?_⟩
        simp only [byteLen_append]
        have h1 : byteLen "Comment:".toList = 8 := by decide
        have h2 : byteLen "Dialogue:".toList = 9 := by decide
        omega)
  obtain ⟨d', h1, h2⟩ := key
  exact ⟨d', does_of_ends (body := table rows ++ (r ++ t)) hh (by rw [hd]; simp only [List.append_assoc]) h1, h2⟩

/-- The head of the examples. -/
def exHead : Str := "[Events]\nFormat: Text\n".toList

theorem exHead_head : Head exHead := by
  refine ⟨[], "\n".toList, " Text".toList, by decide, ?_, ?_, by decide⟩
  · exact splitOnceStr_none.1 (by decide)
  · exact splitOnceStr_none.1 (by decide)

example : Toggled "Dialogue: a".toList "Comment: a".toList := ⟨" a".toList, Or.inl ⟨rfl, rfl⟩⟩
set_option maxRecDepth 20000 in
example : (toggle [1] 9 ⟨"[Events]\nFormat: x\nDialogue: a\nDialogue: b\nComment: é\n".toList, Stack.new ⟨50, 0, 100⟩⟩).map
    (fun r => (r.1, r.2.text)) =
    some (.ok (), "[Events]\nFormat: x\nDialogue: a\nComment: b\nComment: é\n".toList) := by decide

/-- **C36 (part).** Toggling an event twice gives the original text back.
Missing: toggling several events (`C36_toggle_all_violated`, `C36_toggle_panics_violated`). -/
theorem C36_toggle_twice_partial (d : Doc) (h r r' t : Str) (rows : List Str) (k : Nat) (hh : Head h)
    (hrows : ∀ r ∈ rows, Row r) (hc : Count rows k) (ht : Toggled r r') (hr : '\n' ∉ r)
    (htail : t = [] ∨ ∃ t', t = '\n' :: t' ∧ ∀ c, t'.head? = some c → c.toNat < 128)
    (hd : d.text = h ++ table rows ++ r ++ t) :
    ∃ d1 d2, Does (toggle [k]) d (.ok (), d1) ∧ Does (toggle [k]) d1 (.ok (), d2) ∧ d2.text = d.text := by
  obtain ⟨d1, h1, h2⟩ := C36_toggle_partial d h r r' t rows k hh hrows hc ht hr htail hd
  obtain ⟨d2, h3, h4⟩ := C36_toggle_partial d1 h r' r t rows k hh hrows hc (toggled_symm ht) (toggled_noNl ht hr) htail h2
  exact ⟨d1, d2, h1, h3, by rw [h4, hd]⟩

/-- A document with two dialogue lines. -/
def exTwo : Doc := ⟨exHead ++ "Dialogue: a\nDialogue: b\n".toList, Stack.new ⟨50, 0, 100⟩⟩

set_option maxRecDepth 20000 in
/-- **C36, disagreement.** Toggling all events of a script misses the one after each switched event:
the positions of the following lines are not adjusted to the new length. -/
theorem C36_toggle_all_violated :
    ¬ ∀ (d : Doc) (h : Str) (rows rows' : List Str), Head h → (∀ r ∈ rows, Row r) →
        Each (fun _ r r' => Toggled r r') 0 rows rows' → d.text = h ++ table rows →
        ∃ d', Does (toggle []) d (.ok (), d') ∧ d'.text = h ++ table rows' := by
  intro H
  obtain ⟨d', h1, h2⟩ := H exTwo exHead ["Dialogue: a".toList, "Dialogue: b".toList]
    ["Comment: a".toList, "Comment: b".toList] exHead_head
    (by
      intro r hr
      simp only [List.mem_cons, List.not_mem_nil, or_false] at hr
      rcases hr with rfl | rfl <;> exact ⟨by decide, by decide, by decide⟩)
    (Each.event ⟨" a".toList, Or.inl rfl⟩ ⟨" a".toList, Or.inl ⟨rfl, rfl⟩⟩
      (Each.event ⟨" b".toList, Or.inl rfl⟩ ⟨" b".toList, Or.inl ⟨rfl, rfl⟩⟩ Each.nil)) (by decide)
  cases hr : toggle [] 9 exTwo with
  | none => revert hr; decide
  | some r =>
    have ht : r.2.text = exHead ++ "Comment: a\nDialogue: b\n".toList := by
      have : (toggle [] 9 exTwo).map (·.2.text) = some (exHead ++ "Comment: a\nDialogue: b\n".toList) := by decide
      rw [hr] at this; simpa using this
    refine does_not (edit := toggleEdit []) 9 hr ?_ h1
    intro e
    rw [e] at ht
    simp only at ht
    rw [h2] at ht
    revert ht; decide

/-- A dialogue line followed by a line that begins with a two-byte character. -/
def exMulti : Doc := ⟨exHead ++ "Dialogue: a\né\n".toList, Stack.new ⟨50, 0, 100⟩⟩

set_option maxRecDepth 20000 in
/-- **C36, disagreement.** Toggling an event crashes when the next line begins with a character outside
ASCII. -/
theorem C36_toggle_panics_violated :
    ¬ ∀ (d : Doc) (is : List Nat), ∃ o d', Does (toggle is) d (o, d') ∧ o ≠ .panic := by
  intro H
  obtain ⟨o, d', h1, h2⟩ := H exMulti [0]
  cases hr : toggle [0] 9 exMulti with
  | none => revert hr; decide
  | some r =>
    have ht : r.1 = .panic := by
      have : (toggle [0] 9 exMulti).map (·.1) = some .panic := by decide
      rw [hr] at this; simpa using this
    refine does_not (edit := toggleEdit [0]) 9 hr ?_ h1
    intro e
    rw [e] at ht
    exact h2 ht

/-! ## Timing -/

theorem timeStamp_eq (n : Nat) : Time.formatAssTime n = timeStamp n := by
  unfold timeStamp
  rw [Formats.assStamp_eq (by omega) (by omega) (by omega)]
  have e1 : n % 360000 / 6000 = n / 6000 % 60 := by omega
  have e2 : n % 360000 % 6000 / 100 = n / 100 % 60 := by omega
  have e3 : n % 360000 % 6000 % 100 = n % 100 := by omega
  unfold Time.formatAssTime
  simp only [e1, e2, e3]

theorem shift_ok {t : Nat} {off : Int} (ht : t < 2 ^ 31) (h1 : -(2 ^ 31) ≤ t + off) (h2 : t + off < 2 ^ 31) :
    ∃ n, shift t off = .ok n ∧ Moved t off n ∧ n < 2 ^ 31 := by
  unfold shift Karaoke.asI32 Moved
  simp only [ht, if_true]
  rw [if_neg (by omega)]
  exact ⟨_, rfl, by omega, by omega⟩

theorem timing_line {f f' : Fields} (hf : f.Safe) {so eo : Int} (hr : Retimed f so eo f')
    {is : List Nat} {k : Nat} (hk : selected is k = true) :
    timingEdit is so eo k f.line = .ok (some f'.line) := by
  obtain ⟨s, e, s', e', hi, m1, m2, rfl⟩ := hr
  obtain ⟨s2, a1, a2, a3⟩ := shift_ok hi.s31 hi.lowS hi.highS
  obtain ⟨e2, b1, b2, b3⟩ := shift_ok hi.e31 hi.lowE hi.highE
  have es : s2 = s' := by unfold Moved at *; omega
  have ee : e2 = e' := by unfold Moved at *; omega
  subst es; subst ee
  have h31 := hi.s31
  have h32 := hi.e31
  unfold timingEdit
  rw [if_pos hk, parse_safe hf]
  simp only [timingEvent, toEv]
  rw [timeText_parse hi.start (by omega), timeText_parse hi.fin (by omega)]
  simp only [retime, a1, b1]
  rw [← timeStamp_eq, ← timeStamp_eq]
  congr 2
  exact build_toEv { f with start := Time.formatAssTime s2, fin := Time.formatAssTime (max e2 (s2 + 1)) }

theorem ascii_timeStamp (n : Nat) : ∀ c ∈ timeStamp n, c.toNat < 128 := by
  have hd : ∀ c : Char, c.isDigit → c.toNat < 128 := by
    intro c hc
    simp only [Char.isDigit, Bool.and_eq_true, decide_eq_true_eq] at hc
    have := UInt32.le_iff_toNat_le.1 hc.2
    have e : c.toNat = c.val.toNat := rfl
    rw [e]; simp at this ⊢; omega
  intro c hc
  rw [← timeStamp_eq] at hc
  simp only [Time.formatAssTime, List.mem_append, List.mem_cons] at hc
  rcases hc with ((hc | rfl | hc) | rfl | hc) | rfl | hc
  · exact hd c (showNat_digits _ c hc)
  · decide
  · exact hd c (showPad_digits _ _ c hc)
  · decide
  · exact hd c (showPad_digits _ _ c hc)
  · decide
  · exact hd c (showPad_digits _ _ c hc)

theorem line_all {f : Fields} {p : Char → Prop} : (∀ c ∈ f.line, p c) ↔
    (∀ c ∈ (if f.comment then "Comment: ".toList else "Dialogue: ".toList), p c) ∧ p ',' ∧
    (∀ x ∈ [f.layer, f.start, f.fin, f.style, f.name, f.ml, f.mr, f.mv, f.effect, f.text], ∀ c ∈ x, p c) := by
  unfold Fields.line
  simp only [csv, List.forall_mem_append, List.forall_mem_cons, List.not_mem_nil, false_implies, implies_true, and_true]
  constructor
  · rintro ⟨h0, h1, k, h2, _, h3, _, h4, _, h5, _, h6, _, h7, _, h8, _, h9, _, h10⟩
    exact ⟨h0, k, h1, h2, h3, h4, h5, h6, h7, h8, h9, h10⟩
  · rintro ⟨h0, k, h1, h2, h3, h4, h5, h6, h7, h8, h9, h10⟩
    exact ⟨h0, h1, k, h2, k, h3, k, h4, k, h5, k, h6, k, h7, k, h8, k, h9, k, h10⟩

theorem line_row {f : Fields} (h : '\n' ∉ f.line) : Row f.line := by
  refine ⟨h, ?_, ?_⟩ <;> unfold Fields.line <;> cases f.comment <;> simp

theorem split_ascii {s : Str} (h : ∀ c ∈ s, c.toNat < 128) (n : Nat) :
    byteLen s ≤ n ∨ ∃ p q, s = p ++ q ∧ byteLen p = n := by
  have hb : ∀ l : Str, (∀ c ∈ l, c.toNat < 128) → byteLen l = l.length := by
    intro l hl
    exact Color.byteLen_of_ascii (fun c hc => by rw [utf8Size_eq, if_pos (hl c hc)])
  by_cases hn : byteLen s ≤ n
  · exact Or.inl hn
  · refine Or.inr ⟨s.take n, s.drop n, (List.take_append_drop _ _).symm, ?_⟩
    rw [hb _ (fun c hc => h c (List.mem_of_mem_take hc)), List.length_take]
    rw [hb s h] at hn
    omega

theorem selected_one (k j : Nat) : selected [k] j = decide (j = k) := by simp [selected]

/-- **C36, C37 (part).** Moving the times of one event: exactly its start and end change, as asked, clamped
at zero and with the end after the start; every other byte of the document stays.  Missing: events that are
not safe for `parse_event_line` (see the disagreements of C37), text outside ASCII (for which see `C36_timing_exact`),
times of 2^31 centiseconds or more, offsets that overflow. -/
theorem C36_timing_partial (d : Doc) (h t : Str) (rows : List Str) (k : Nat) (f f' : Fields) (so eo : Int)
    (hh : Head h) (hrows : ∀ r ∈ rows, Row r) (hc : Count rows k) (hf : f.Safe) (hnl : '\n' ∉ f.line)
    (htail : t = [] ∨ t.head? = some '\n') (hascii : ∀ c ∈ f.line ++ t, c.toNat < 128)
    (hr : Retimed f so eo f') (hd : d.text = h ++ table rows ++ f.line ++ t) :
    ∃ d', Does (timing [k] so eo) d (.ok (), d') ∧ d'.text = h ++ table rows ++ f'.line ++ t := by
  have r2 := timing_line hf hr (is := [k]) (k := k) (by rw [selected_one]; simp)
  obtain ⟨d', g1, g2⟩ := ends_one (ag := false) (edit := timingEdit [k] so eo) (new := f'.line) hd hrows hc (line_row hnl)
    (line_isEvent f) htail r2 (by intro j hj l; unfold timingEdit; rw [selected_one]; simp [hj])
    (by
      have ha : ∀ c ∈ f'.line ++ t, c.toNat < 128 := by
        rw [List.forall_mem_append] at hascii ⊢
        refine ⟨?_, hascii.2⟩
        obtain ⟨s, e, s', e', _, _, _, rfl⟩ := hr
        have h0 := line_all.1 hascii.1
        refine line_all.2 ⟨h0.1, h0.2.1, ?_⟩
        have h1 := h0.2.2
        simp only [List.forall_mem_cons] at h1 ⊢
        exact ⟨h1.1, ascii_timeStamp _, ascii_timeStamp _, h1.2.2.2⟩
      rcases split_ascii ha (byteLen f.line + 1) with hb | hb
      · left; rwa [byteLen_append] at hb
      · exact Or.inr hb)
  exact ⟨d', does_of_ends (body := table rows ++ (f.line ++ t)) hh (by rw [hd]; simp only [List.append_assoc]) g1, g2⟩

/-- **C36.** Retimed events start before they end (and no time is negative: times are natural numbers). -/
theorem C36_ordered (f f' : Fields) (so eo : Int) (h : Retimed f so eo f') :
    ∃ s' e', Time.parseAssTime f'.start = .ok s' ∧ Time.parseAssTime f'.fin = .ok e' ∧ s' < e' := by
  obtain ⟨s, e, s', e', hi, m1, m2, rfl⟩ := h
  have h1 := hi.highS
  have h2 := hi.highE
  unfold Moved at m1 m2
  refine ⟨s', max e' (s' + 1), ?_, ?_, by omega⟩
  · simp only []
    rw [← timeStamp_eq]; exact C01_time_roundtrip _ (by omega)
  · simp only []
    rw [← timeStamp_eq]; exact C01_time_roundtrip _ (by omega)

/-- **C36 (part).** Moving the times of any selection of events (all of them, if the selection is empty):
each selected event is retimed, everything else stays, provided the retimed lines keep their length in bytes
(`C36_timing_all_violated` shows that this is needed). -/
theorem C36_timing_selection_partial (d : Doc) (h t : Str) (rows rows' : List Str) (is : List Nat) (so eo : Int)
    (hh : Head h) (hrows : ∀ r ∈ rows, Row r) (ht : End t)
    (he : Each (fun j r r' =>
      (Selected is j ∧ ∃ f f' : Fields, r = f.line ∧ r' = f'.line ∧ f.Safe ∧ Retimed f so eo f' ∧
        byteLen r' = byteLen r) ∨
      (¬ Selected is j ∧ r' = r)) 0 rows rows')
    (hd : d.text = h ++ table rows ++ t) :
    ∃ d', Does (timing is so eo) d (.ok (), d') ∧ d'.text = h ++ table rows' ++ t := by
  have hsel : ∀ j, selected is j = true ↔ Selected is j := by
    intro j; unfold selected Selected; simp
  obtain ⟨d', h1, h2⟩ := ends_each (ag := false) (edit := timingEdit is so eo) he (by
    rintro j l l' (⟨hj, f, f', rfl, rfl, hf, hre, hb⟩ | ⟨hj, rfl⟩)
    · exact ⟨hb, Or.inl (timing_line hf hre ((hsel j).2 hj))⟩
    · refine ⟨rfl, Or.inr ⟨?_, rfl⟩⟩
      unfold timingEdit
      rw [if_neg (by rw [hsel]; exact hj)]) hd hrows ht (fun h => by cases h)
  exact ⟨d', does_of_ends (body := table rows ++ t) hh (by rw [hd]; simp only [List.append_assoc]) h1, h2⟩

/-- An event of the examples. -/
def exFields (start fin text : String) : Fields :=
  ⟨false, "0".toList, start.toList, fin.toList, "Default".toList, [], "0".toList, "0".toList, "0".toList, [], text.toList⟩

theorem not_white_of {c : Char} (h : isWs c = false) : ¬ White c := fun hw => by
  rw [(SrtDoc.white_iff c).2 hw] at h; simp at h

/-- Trimmedness, decidably. -/
theorem trimmed_of {s : Str} (h1 : ∀ c ∈ s.head?, isWs c = false) (h2 : ∀ c ∈ s.getLast?, isWs c = false) : Trimmed s :=
  ⟨fun c hc => not_white_of (h1 c hc), fun c hc => not_white_of (h2 c hc)⟩

theorem ex_timeText {s : String} {n : Nat} (h : Time.parseAssTime s.toList = .ok n) : Verif.Spec.TimeText s.toList n :=
  ((C02_parse_accepts_iff _ _).1 h).1

theorem guarded_of {s : Str} (h1 : ',' ∉ s) (h2 : s.count '(' = s.count ')') : Guarded s :=
  ⟨fun a b e => absurd (by rw [e]; simp) h1, h2⟩

theorem exFields_safe : (exFields "0:00:01.00" "0:00:02.50" "Hi (there)").Safe := by
  refine ⟨?_, by decide, trimmed_of (by decide) (by decide), guarded_of (by decide) (by decide)⟩
  intro x hx
  simp only [exFields, List.mem_cons, List.not_mem_nil, or_false] at hx
  rcases hx with rfl | rfl | rfl | rfl | rfl | rfl | rfl | rfl | rfl <;>
    exact ⟨by decide, trimmed_of (by decide) (by decide)⟩

example : Retimed (exFields "0:00:01.00" "0:00:02.50" "Hi (there)") (-300) 0
    (exFields "0:00:00.00" "0:00:02.50" "Hi (there)") :=
  ⟨100, 250, 0, 250, ⟨ex_timeText (by decide), ex_timeText (by decide), by decide, by decide, by decide, by decide,
    by decide, by decide⟩, by unfold Moved; omega, by unfold Moved; omega, by decide⟩

/-- Two events; the first one loses a byte when it is moved back. -/
def exTimes : Doc := ⟨exHead ++ table [(exFields "10:00:00.00" "10:00:01.00" "a").line, (exFields "1:00:00.00" "1:00:01.00" "b").line],
  Stack.new ⟨50, 0, 100⟩⟩

theorem exFields_safe2 (x y z : String) (h1 : Plain x.toList) (h2 : Plain y.toList) (h3 : Trimmed z.toList)
    (h4 : Guarded z.toList) : (exFields x y z).Safe := by
  refine ⟨?_, by intro c hc; simp [exFields] at hc, h3, h4⟩
  intro w hw
  simp only [exFields, List.mem_cons, List.not_mem_nil, or_false] at hw
  rcases hw with rfl | rfl | rfl | rfl | rfl | rfl | rfl | rfl | rfl
  · exact ⟨by decide, trimmed_of (by decide) (by decide)⟩
  · exact h1
  · exact h2
  all_goals exact ⟨by decide, trimmed_of (by decide) (by decide)⟩

set_option maxRecDepth 40000 in
/-- **C36, disagreement.** If moving the times changes the length of an event line, the next event is
missed. -/
theorem C36_timing_all_violated :
    ¬ ∀ (d : Doc) (h : Str) (rows rows' : List Str) (so eo : Int), Head h → (∀ r ∈ rows, Row r) →
        Each (fun _ r r' => ∃ f f' : Fields, r = f.line ∧ r' = f'.line ∧ f.Safe ∧ Retimed f so eo f') 0 rows rows' →
        d.text = h ++ table rows →
        ∃ d', Does (timing [] so eo) d (.ok (), d') ∧ d'.text = h ++ table rows' := by
  intro H
  obtain ⟨d', h1, h2⟩ := H exTimes exHead
    [(exFields "10:00:00.00" "10:00:01.00" "a").line, (exFields "1:00:00.00" "1:00:01.00" "b").line]
    [(exFields "9:59:59.50" "10:00:00.50" "a").line, (exFields "0:59:59.50" "1:00:00.50" "b").line]
    (-50) (-50) exHead_head
    (by
      intro r hr
      simp only [List.mem_cons, List.not_mem_nil, or_false] at hr
      rcases hr with rfl | rfl <;> exact ⟨by decide, by decide, by decide⟩)
    (Each.event (line_isEvent _) ⟨_, _, rfl, rfl,
        exFields_safe2 _ _ _ ⟨by decide, trimmed_of (by decide) (by decide)⟩ ⟨by decide, trimmed_of (by decide) (by decide)⟩
          (trimmed_of (by decide) (by decide)) (guarded_of (by decide) (by decide)),
        ⟨3600000, 3600100, 3599950, 3600050, ⟨ex_timeText (by decide), ex_timeText (by decide), by decide, by decide,
          by decide, by decide, by decide, by decide⟩, by unfold Moved; omega, by unfold Moved; omega, by decide⟩⟩
      (Each.event (line_isEvent _) ⟨_, _, rfl, rfl,
        exFields_safe2 _ _ _ ⟨by decide, trimmed_of (by decide) (by decide)⟩ ⟨by decide, trimmed_of (by decide) (by decide)⟩
          (trimmed_of (by decide) (by decide)) (guarded_of (by decide) (by decide)),
        ⟨360000, 360100, 359950, 360050, ⟨ex_timeText (by decide), ex_timeText (by decide), by decide, by decide,
          by decide, by decide, by decide, by decide⟩, by unfold Moved; omega, by unfold Moved; omega, by decide⟩⟩
        Each.nil)) rfl
  cases hr : timing [] (-50) (-50) 9 exTimes with
  | none => revert hr; decide
  | some r =>
    have ht : r.2.text = exHead ++ table [(exFields "9:59:59.50" "10:00:00.50" "a").line,
        (exFields "1:00:00.00" "1:00:01.00" "b").line] := by
      have : (timing [] (-50) (-50) 9 exTimes).map (·.2.text) = some (exHead ++
        table [(exFields "9:59:59.50" "10:00:00.50" "a").line, (exFields "1:00:00.00" "1:00:01.00" "b").line]) := by decide
      rw [hr] at this; simpa using this
    refine does_not (edit := timingEdit [] (-50) (-50)) 9 hr ?_ h1
    intro e
    rw [e] at ht
    simp only at ht
    rw [h2] at ht
    revert ht; decide

/-! ## Editing one field -/

theorem effect_line {f : Fields} (hf : f.Safe) {is : List Nat} {k : Nat} (hk : selected is k = true) (op : EffectOp)
    (e : Str) : effectEdit is op e k f.line = .ok (some { f with effect := newEffect op e f.effect }.line) := by
  unfold effectEdit
  rw [if_pos hk, parse_safe hf]
  simp only []
  congr 2
  exact build_toEv { f with effect := newEffect op e f.effect }

theorem effect_one (d : Doc) (h t e : Str) (rows : List Str) (k : Nat) (f : Fields) (op : EffectOp)
    (hh : Head h) (hrows : ∀ r ∈ rows, Row r) (hc : Count rows k) (hf : f.Safe) (hnl : '\n' ∉ f.line)
    (htail : t = [] ∨ t.head? = some '\n') (hascii : ∀ c ∈ f.line ++ t ++ e, c.toNat < 128)
    (hd : d.text = h ++ table rows ++ f.line ++ t) :
    ∃ d', Does (effect [k] op e) d (.ok (), d') ∧
      d'.text = h ++ table rows ++ { f with effect := newEffect op e f.effect }.line ++ t := by
  have r2 := effect_line hf (is := [k]) (k := k) (by rw [selected_one]; simp) op e
  obtain ⟨d', g1, g2⟩ := ends_one (ag := false) (edit := effectEdit [k] op e) (new := { f with effect := newEffect op e f.effect }.line)
    hd hrows hc (line_row hnl)
    (line_isEvent f) htail r2 (by intro j hj l; unfold effectEdit; rw [selected_one]; simp [hj])
    (by
      have ha : ∀ c ∈ { f with effect := newEffect op e f.effect }.line ++ t, c.toNat < 128 := by
        rw [List.forall_mem_append, List.forall_mem_append] at hascii
        rw [List.forall_mem_append]
        refine ⟨?_, hascii.1.2⟩
        have h0 := line_all.1 hascii.1.1
        refine line_all.2 ⟨h0.1, h0.2.1, ?_⟩
        have h1 := h0.2.2
        simp only [List.forall_mem_cons] at h1 ⊢
        obtain ⟨a1, a2, a3, a4, a5, a6, a7, a8, a9, a10⟩ := h1
        refine ⟨a1, a2, a3, a4, a5, a6, a7, a8, ?_, a10⟩
        have he := hascii.2
        cases op
        · exact he
        · simp only [newEffect]
          split
          · exact he
          · rw [List.forall_mem_append, List.forall_mem_cons]; exact ⟨a9, by decide, he⟩
        · simp only [newEffect]
          split
          · exact he
          · rw [List.forall_mem_append, List.forall_mem_cons]; exact ⟨he, by decide, a9⟩
        · simp [newEffect]
      rcases split_ascii ha (byteLen f.line + 1) with hb | hb
      · left; rwa [byteLen_append] at hb
      · exact Or.inr hb)
  exact ⟨d', does_of_ends (body := table rows ++ (f.line ++ t)) hh (by rw [hd]; simp only [List.append_assoc]) g1, g2⟩

/-- **C37 (part).** Setting, clearing, appending to or prepending to the effect of one event changes exactly
the effect field; every other field and every other line stay.  Missing: events that are not safe (see the
disagreements below), text outside ASCII (see `C37_effect_exact`), several events at once (`C37_effects_partial`). -/
theorem C37_effect_partial (d : Doc) (h t e : Str) (rows : List Str) (k : Nat) (f : Fields)
    (hh : Head h) (hrows : ∀ r ∈ rows, Row r) (hc : Count rows k) (hf : f.Safe) (hnl : '\n' ∉ f.line)
    (htail : t = [] ∨ t.head? = some '\n') (hascii : ∀ c ∈ f.line ++ t ++ e, c.toNat < 128)
    (hd : d.text = h ++ table rows ++ f.line ++ t) :
    (∃ d', Does (effect [k] .set e) d (.ok (), d') ∧ d'.text = h ++ table rows ++ { f with effect := e }.line ++ t) ∧
    (∃ d', Does (effect [k] .clear e) d (.ok (), d') ∧ d'.text = h ++ table rows ++ { f with effect := [] }.line ++ t) ∧
    (f.effect ≠ [] →
      (∃ d', Does (effect [k] .append e) d (.ok (), d') ∧
        d'.text = h ++ table rows ++ { f with effect := f.effect ++ ' ' :: e }.line ++ t) ∧
      (∃ d', Does (effect [k] .prepend e) d (.ok (), d') ∧
        d'.text = h ++ table rows ++ { f with effect := e ++ ' ' :: f.effect }.line ++ t)) ∧
    (f.effect = [] →
      (∃ d', Does (effect [k] .append e) d (.ok (), d') ∧ d'.text = h ++ table rows ++ { f with effect := e }.line ++ t) ∧
      (∃ d', Does (effect [k] .prepend e) d (.ok (), d') ∧ d'.text = h ++ table rows ++ { f with effect := e }.line ++ t)) := by
  have key := fun op => effect_one d h t e rows k f op hh hrows hc hf hnl htail hascii hd
  refine ⟨key .set, key .clear, fun hne => ?_, fun hne => ?_⟩
  · have a := key .append
    have b := key .prepend
    simp only [newEffect, if_neg hne] at a b
    exact ⟨a, b⟩
  · have a := key .append
    have b := key .prepend
    simp only [newEffect, if_pos hne] at a b
    exact ⟨a, b⟩

/-- A document with one event with this text. -/
def exText (text : String) : Doc :=
  ⟨exHead ++ (exFields "0:00:01.00" "0:00:02.00" text).line ++ ['\n'], Stack.new ⟨50, 0, 100⟩⟩

set_option maxRecDepth 20000 in
example : (effect [0] .set "fx".toList 9 (exText "Hi (a, b)")).map (fun r => (r.1, r.2.text)) =
    some (.ok (), exHead ++ "Dialogue: 0,0:00:01.00,0:00:02.00,Default,,0,0,0,fx,Hi (a, b)\n".toList) := by decide

/-- The claim for events that are plain except for their text, which only has no blanks at its ends:
moving the times by one second changes nothing but the times. -/
def OnlyTimes : Prop :=
  ∀ (d d' : Doc) (text : String), Trimmed text.toList → '\n' ∉ text.toList → d = exText text →
    Does (timing [0] 100 100) d (.ok (), d') →
    d'.text = exHead ++ (exFields "0:00:02.00" "0:00:03.00" text).line ++ ['\n']

theorem onlyTimes_fails (text wrong : String) (h1 : Trimmed text.toList) (h2 : '\n' ∉ text.toList)
    (h3 : (timing [0] 100 100 9 (exText text)).map (fun r => (r.1, r.2.text)) =
      some (.ok (), exHead ++ (exFields "0:00:02.00" "0:00:03.00" wrong).line ++ ['\n']))
    (h4 : wrong.toList ≠ text.toList) : ¬ OnlyTimes := by
  intro H
  cases hr : timing [0] 100 100 9 (exText text) with
  | none => rw [hr] at h3; simp at h3
  | some r =>
    rw [hr] at h3
    obtain ⟨o, d'⟩ := r
    simp only [Option.map_some, Option.some.injEq, Prod.mk.injEq] at h3
    obtain ⟨rfl, h5⟩ := h3
    have := H _ d' text h1 h2 rfl ⟨9, fun m hm => editEvents_le hm hr⟩
    rw [h5] at this
    have := List.append_cancel_left (List.append_cancel_right this)
    unfold Fields.line exFields at this
    simp only [csv] at this
    apply h4
    simpa using this

set_option maxRecDepth 20000 in
/-- **C37, disagreement.** Blanks next to the last comma of the text are lost when the times are moved. -/
theorem C37_comma_violated : ¬ OnlyTimes :=
  onlyTimes_fails "Hello, you" "Hello,you" (trimmed_of (by decide) (by decide)) (by decide) (by decide) (by decide)

set_option maxRecDepth 20000 in
/-- **C37, disagreement.** A closing parenthesis without an opening one in the text: the event gains a comma. -/
theorem C37_paren_violated : ¬ OnlyTimes :=
  onlyTimes_fails "Hi :)" "Hi :)," (trimmed_of (by decide) (by decide)) (by decide) (by decide) (by decide)

set_option maxRecDepth 20000 in
/-- **C37, disagreement.** A comma after a character outside ASCII: the command crashes. -/
theorem C37_multibyte_violated :
    ¬ ∀ (d : Doc) (is : List Nat) (so eo : Int), ∃ o d', Does (timing is so eo) d (o, d') ∧ o ≠ .panic := by
  intro H
  obtain ⟨o, d', h1, h2⟩ := H (exText "é, a") [0] 100 100
  cases hr : timing [0] 100 100 9 (exText "é, a") with
  | none => revert hr; decide
  | some r =>
    have ht : r.1 = .panic := by
      have : (timing [0] 100 100 9 (exText "é, a")).map (·.1) = some .panic := by decide
      rw [hr] at this; simpa using this
    refine does_not (edit := timingEdit [0] 100 100) 9 hr ?_ h1
    intro e
    rw [e] at ht
    exact h2 ht

/-! ## Deleting -/

/-- **C65.** Deleting an event removes exactly its line: `rows` are the lines between the format line and
the event, `k` the number of events among them. -/
theorem C65_delete (d : Doc) (h r t : Str) (rows : List Str) (k : Nat) (hh : Head h) (hrows : ∀ r ∈ rows, '\n' ∉ r)
    (hc : Count rows k) (hr : '\n' ∉ r) (hev : IsEvent r) (hd : d.text = h ++ table rows ++ r ++ '\n' :: t) :
    ∃ d', deleteEvent k d = (.ok (), d') ∧ d'.text = h ++ table rows ++ t := by
  obtain ⟨d', h1, h2⟩ := delete_at d (a := h ++ table rows) (m := r ++ ['\n']) (b := t) (by rw [hd]; simp)
  refine ⟨d', ?_, h2⟩
  unfold deleteEvent
  have e : d.text = h ++ (table rows ++ (r ++ '\n' :: t)) := by rw [hd]; simp
  rw [e, bodySplit_head hh]
  simp only
  rw [findEvent_skip hc hrows (by omega), rowsNl_row hr, findEvent, bare_row]
  simp only
  rw [if_pos (isEventLine_iff.2 hev), if_pos (by omega)]
  simp only
  rw [byteLen_append] at h1
  exact h1

set_option maxRecDepth 20000 in
example : (fun r : Outcome Unit × Doc => (r.1, r.2.text)) (deleteEvent 1 exTwo) = (.ok (), exHead ++ "Dialogue: a\n".toList) := by decide

/-- **C65.** An index that no event has is an error and leaves the document unchanged. -/
theorem C65_missing (d : Doc) (h : Str) (rows : List Str) (n k : Nat) (hh : Head h) (hrows : ∀ r ∈ rows, '\n' ∉ r)
    (hc : Count rows n) (hk : n ≤ k) (hd : d.text = h ++ table rows) : deleteEvent k d = (.err, d) := by
  unfold deleteEvent
  rw [hd, bodySplit_head hh]
  simp only
  have := findEvent_skip (k := k) hc (t := []) (pos := byteLen h) (idx := 0) hrows (by omega)
  rw [List.append_nil] at this
  rw [this]
  rfl

example : deleteEvent 5 exTwo = (.err, exTwo) :=
  C65_missing exTwo exHead ["Dialogue: a".toList, "Dialogue: b".toList] 2 5 exHead_head
    (by intro r hr; simp only [List.mem_cons, List.not_mem_nil, or_false] at hr; rcases hr with rfl | rfl <;> decide)
    (Count.event ⟨" a".toList, Or.inl rfl⟩ (Count.event ⟨" b".toList, Or.inl rfl⟩ Count.nil)) (by decide) (by decide)

/-- **C65.** Deleting several events at once removes exactly their lines (indices without an event are
ignored), in any order and with any repetitions of the indices. -/
theorem C65_batch (d : Doc) (h : Str) (rows rows' : List Str) (is : List Nat) (hh : Head h)
    (hrows : ∀ r ∈ rows, '\n' ∉ r) (hw : Without is 0 rows rows') (hd : d.text = h ++ table rows) :
    ∃ d', batchDelete is d = (.ok (), d') ∧ d'.text = h ++ table rows' := by
  obtain ⟨es, h1, h2⟩ := allEvents_delete hw (done := h) hrows
  obtain ⟨d', h3, h4⟩ := h2 d [] (by rw [hd]; simp)
  rw [List.append_nil] at h4
  unfold batchDelete
  by_cases hi : is = []
  · rw [if_pos hi]
    refine ⟨d, rfl, ?_⟩
    rw [hd]
    congr 2
    subst hi
    have : ∀ (i : Nat) (a b : List Str), Without [] i a b → a = b := by
      intro i a b hw
      induction hw with
      | nil => rfl
      | drop _ h => simp at h
      | keep _ _ _ ih => rw [ih]
      | other _ _ ih => rw [ih]
    exact this _ _ _ hw
  · rw [if_neg hi, hd, bodySplit_head hh]
    simp only
    rw [h1]
    exact ⟨d', h3, h4⟩

set_option maxRecDepth 20000 in
example : (fun r : Outcome Unit × Doc => (r.1, r.2.text)) (batchDelete [1, 7, 1] exTwo) = (.ok (), exHead ++ "Dialogue: a\n".toList) := by decide

set_option maxRecDepth 20000 in
/-- **C65, disagreement.** Deleting an event crashes when the file ends, without a line feed, in a character
outside ASCII. -/
theorem C65_unterminated_violated : ¬ ∀ (d : Doc) (k : Nat), (deleteEvent k d).1 ≠ .panic := by
  intro H
  exact H ⟨exHead ++ "Dialogue: é".toList, Stack.new ⟨50, 0, 100⟩⟩ 0 (by decide)

/-! ## Merging and splitting -/

theorem bodySplit_doc {d : Doc} {h body : Str} (hh : Head h) (hd : d.text = h ++ body) :
    bodySplit d.text = some (h, body) := by rw [hd, bodySplit_head hh]

/-- **C66 (part).** Merging two neighbouring events: one event with the fields of the first, the end of the
second and both texts with the separator between them; every other line stays.  Missing: events that are not
safe, a second event at the end of a file without final line feed (`C66_merge_last_violated`), events in
between (`C66_merge_between_violated`). -/
theorem C66_merge_partial (d : Doc) (h t sep : Str) (rows : List Str) (k : Nat) (f1 f2 : Fields) (hh : Head h)
    (hrows : ∀ r ∈ rows, Row r) (hc : Count rows k) (h1 : f1.Safe) (h2 : f2.Safe) (n1 : '\n' ∉ f1.line)
    (n2 : '\n' ∉ f2.line) (hd : d.text = h ++ table rows ++ f1.line ++ '\n' :: (f2.line ++ '\n' :: t)) :
    ∃ d', mergeEvents k (k + 1) sep d = (.ok (), d') ∧
      d'.text = h ++ table rows ++ { f1 with fin := f2.fin, text := f1.text ++ sep ++ f2.text }.line ++ '\n' :: t := by
  unfold mergeEvents
  rw [if_neg (by omega)]
  have hd1 : d.text = h ++ (table rows ++ (f1.line ++ '\n' :: (f2.line ++ '\n' :: t))) := by rw [hd]; simp
  rw [bodySplit_doc hh hd1]
  simp only
  have e1 := eventsIn_at hc hrows (line_row n1) (line_isEvent f1) (t := '\n' :: (f2.line ++ '\n' :: t)) (Or.inr rfl) (byteLen h)
  have e2 := eventsIn_at (rows := rows ++ [f1.line]) (k := k + 1)
    (by simpa using count_append hc (Count.event (line_isEvent f1) Count.nil))
    (by
      intro r hr
      rcases List.mem_append.1 hr with hr | hr
      · exact hrows r hr
      · simp at hr; subst hr; exact line_row n1)
    (line_row n2) (line_isEvent f2) (t := '\n' :: t) (Or.inr rfl) (byteLen h)
  rw [table_append, show table [f1.line] = f1.line ++ ['\n'] by simp [table]] at e2
  have hb : table rows ++ (f1.line ++ ['\n']) ++ (f2.line ++ '\n' :: t) =
      table rows ++ (f1.line ++ '\n' :: (f2.line ++ '\n' :: t)) := by simp
  rw [hb] at e2
  rw [e1, e2]
  simp only [mergeLines, parse_safe h1, parse_safe h2]
  have hd2 : d.text = (h ++ table rows) ++ (f1.line ++ '\n' :: f2.line ++ ['\n']) ++ t := by rw [hd]; simp
  obtain ⟨d', g1, g2⟩ := replace_at d hd2 (build { toEv f1 with fin := (toEv f2).fin, text := (toEv f1).text ++ sep ++ (toEv f2).text } ++ ['\n'])
  refine ⟨d', ?_, ?_⟩
  · rw [← g1]
    congr 2
    · rw [byteLen_append]
    · simp only [byteLen_append, byteLen_cons]
      have : '\n'.utf8Size = 1 := by decide
      simp
      omega
  · rw [g2]
    have := build_toEv { f1 with fin := f2.fin, text := f1.text ++ sep ++ f2.text }
    rw [← this]
    simp [toEv]

set_option maxRecDepth 20000 in
example : (fun r : Outcome Unit × Doc => (r.1, r.2.text)) (mergeEvents 0 1 " ".toList
    ⟨exHead ++ "Dialogue: 0,1,2,D,,0,0,0,,a\nDialogue: 0,2,3,D,,0,0,0,,b\n".toList, Stack.new ⟨50, 0, 100⟩⟩) =
    (.ok (), exHead ++ "Dialogue: 0,1,3,D,,0,0,0,,a b\n".toList) := by decide

/-- Three events. -/
def exThree : Doc := ⟨exHead ++ "Dialogue: 0,1,2,D,,0,0,0,,a\nDialogue: 0,2,3,D,,0,0,0,,b\nDialogue: 0,3,4,D,,0,0,0,,c\n".toList,
  Stack.new ⟨50, 0, 100⟩⟩

set_option maxRecDepth 20000 in
/-- **C66, disagreement.** Merging two events that are not neighbours deletes the events between them:
the line of an event that is not merged does not survive. -/
theorem C66_merge_between_violated :
    ¬ ∀ (d d' : Doc) (i j : Nat) (sep a l b : Str), mergeEvents i j sep d = (.ok (), d') →
        (∃ p q : Str, Head p ∧ ∃ rows : List Str, ∃ k, Count rows k ∧ k ≠ i ∧ k ≠ j ∧ IsEvent l ∧ '\n' ∉ l ∧
          (∀ r ∈ rows, Row r) ∧ d.text = p ++ table rows ++ l ++ '\n' :: q) →
        d.text = a ++ l ++ b → ∃ a' b', d'.text = a' ++ l ++ b' := by
  intro H
  cases hr : mergeEvents 0 2 " ".toList exThree with
  | mk o d' =>
    have ho : o = .ok () ∧ d'.text = exHead ++ "Dialogue: 0,1,4,D,,0,0,0,,a c\n".toList := by
      have : (fun r : Outcome Unit × Doc => (r.1, r.2.text)) (mergeEvents 0 2 " ".toList exThree) =
        (.ok (), exHead ++ "Dialogue: 0,1,4,D,,0,0,0,,a c\n".toList) := by decide
      rw [hr] at this
      simpa using this
    obtain ⟨a', b', e⟩ := H exThree d' 0 2 " ".toList (exHead ++ "Dialogue: 0,1,2,D,,0,0,0,,a\n".toList)
      "Dialogue: 0,2,3,D,,0,0,0,,b".toList "\nDialogue: 0,3,4,D,,0,0,0,,c\n".toList (by rw [hr, ho.1])
      ⟨exHead, "Dialogue: 0,3,4,D,,0,0,0,,c\n".toList, exHead_head, ["Dialogue: 0,1,2,D,,0,0,0,,a".toList], 1,
        Count.event ⟨" 0,1,2,D,,0,0,0,,a".toList, Or.inl rfl⟩ Count.nil, by decide, by decide,
        ⟨" 0,2,3,D,,0,0,0,,b".toList, Or.inl rfl⟩, by decide, by
          intro r hr; simp at hr; subst hr; exact ⟨by decide, by decide, by decide⟩, by decide⟩ (by decide)
    rw [ho.2] at e
    exact splitOnceStr_none.1 (by decide) a' b' e

set_option maxRecDepth 20000 in
/-- **C66, disagreement.** Merging with an event that ends the file without a line feed is refused. -/
theorem C66_merge_last_violated :
    ¬ ∀ (d : Doc) (h sep : Str) (f1 f2 : Fields), Head h → f1.Safe → f2.Safe → '\n' ∉ f1.line → '\n' ∉ f2.line →
        d.text = h ++ f1.line ++ '\n' :: f2.line → (mergeEvents 0 1 sep d).1 = .ok () := by
  intro H
  have hs : (exFields "0:00:01.00" "0:00:02.00" "a").Safe :=
    exFields_safe2 _ _ _ ⟨by decide, trimmed_of (by decide) (by decide)⟩ ⟨by decide, trimmed_of (by decide) (by decide)⟩
          (trimmed_of (by decide) (by decide)) (guarded_of (by decide) (by decide))
  have := H ⟨exHead ++ (exFields "0:00:01.00" "0:00:02.00" "a").line ++ '\n' :: (exFields "0:00:01.00" "0:00:02.00" "a").line,
    Stack.new ⟨50, 0, 100⟩⟩ exHead " ".toList _ _ exHead_head hs hs (by decide) (by decide) rfl
  revert this; decide

/-- **C66 (part).** Splitting an event at a time inside it: two events, the first ending and the second
starting at that time, all other fields those of the event; every other line stays.  Missing: events that are
not safe. -/
theorem C66_split_partial (d : Doc) (h t at_ : Str) (rows : List Str) (k s e m : Nat) (f : Fields) (hh : Head h)
    (hrows : ∀ r ∈ rows, Row r) (hc : Count rows k) (hf : f.Safe) (hn : '\n' ∉ f.line)
    (ht : t = [] ∨ t.head? = some '\n') (hs : Verif.Spec.TimeText f.start s) (he : Verif.Spec.TimeText f.fin e)
    (hm : Verif.Spec.TimeText at_ m) (h1 : s < m) (h2 : m < e) (h3 : e < 2 ^ 32)
    (hd : d.text = h ++ table rows ++ f.line ++ t) :
    ∃ d', splitEvent k at_ d = (.ok (), d') ∧
      d'.text = h ++ table rows ++ { f with fin := at_ }.line ++ '\n' :: { f with start := at_ }.line ++ t := by
  unfold splitEvent
  rw [timeText_parse hm (by omega)]
  simp only
  have hd1 : d.text = h ++ (table rows ++ (f.line ++ t)) := by rw [hd]; simp
  rw [bodySplit_doc hh hd1]
  simp only
  rw [eventsIn_at hc hrows (line_row hn) (line_isEvent f) ht]
  simp only [splitLine, parse_safe hf, toEv]
  rw [timeText_parse hs (by omega), timeText_parse he h3]
  simp only [splitTimed]
  rw [if_neg (by omega)]
  have b1 := build_toEv { f with fin := at_ }
  have b2 := build_toEv { f with start := at_ }
  simp only [toEv] at b1 b2
  rw [b1, b2, ← byteLen_append]
  obtain ⟨d', g1, g2⟩ := replace_at d hd ({ f with fin := at_ }.line ++ '\n' :: { f with start := at_ }.line)
  exact ⟨d', g1, by rw [g2]; simp⟩

/-- **C66.** A split time that is not inside the event is refused without any change. -/
theorem C66_split_outside (d : Doc) (h t at_ : Str) (rows : List Str) (k s e m : Nat) (f : Fields) (hh : Head h)
    (hrows : ∀ r ∈ rows, Row r) (hc : Count rows k) (hf : f.Safe) (hn : '\n' ∉ f.line)
    (ht : t = [] ∨ t.head? = some '\n') (hs : Verif.Spec.TimeText f.start s) (he : Verif.Spec.TimeText f.fin e)
    (hm : Verif.Spec.TimeText at_ m) (h1 : m ≤ s ∨ e ≤ m) (h3 : e < 2 ^ 32) (h4 : s < 2 ^ 32) (h5 : m < 2 ^ 32)
    (hd : d.text = h ++ table rows ++ f.line ++ t) : splitEvent k at_ d = (.err, d) := by
  unfold splitEvent
  rw [timeText_parse hm h5]
  simp only
  have hd1 : d.text = h ++ (table rows ++ (f.line ++ t)) := by rw [hd]; simp
  rw [bodySplit_doc hh hd1]
  simp only
  rw [eventsIn_at hc hrows (line_row hn) (line_isEvent f) ht]
  simp only [splitLine, parse_safe hf, toEv]
  rw [timeText_parse hs h4, timeText_parse he h3]
  simp only [splitTimed]
  rw [if_pos (by omega)]

set_option maxRecDepth 20000 in
example : (fun r : Outcome Unit × Doc => (r.1, r.2.text)) (splitEvent 0 "0:00:01.50".toList (exText "a")) =
    (.ok (), exHead ++ table [(exFields "0:00:01.00" "0:00:01.50" "a").line, (exFields "0:00:01.50" "0:00:02.00" "a").line]) := by
  decide
set_option maxRecDepth 20000 in
example : splitEvent 0 "0:00:02.00".toList (exText "a") = (.err, exText "a") := by decide

end Verif.Props
