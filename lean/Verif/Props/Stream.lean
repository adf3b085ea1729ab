import Verif.Lemmas.Stream
import Verif.Model.Parser
/-!
# C40, C84 — streaming parser
-/
namespace Verif.Props
open Verif Verif.Stream Verif.Spec.Stream
open Verif.Spec.InfoCmd (Stripped)

/-- **C40, partial.** A text fed in pieces leaves the parser exactly as when it is fed at once, if no piece but the last ends
with a carriage return.  (For other pieces, and for pieces that are not text, see `C40_carriage_return_violated` and
`C40_bytes_violated`.) -/
theorem C40_chunks_partial (p : Parser) (pieces : List Str) (last : Str) (h : ∀ c ∈ pieces, c.getLast? ≠ some '\r') :
    p.feedAll ((pieces ++ [last]).map utf8) = p.feedAll [utf8 (pieces.flatten ++ last)] := by
  rw [feedAll_flatten pieces p last h, feed_utf8]
  unfold Parser.feedAll
  rw [feed_utf8]
  rfl

example : (Parser.new.feedAll (["[Ev".toList, "ents]\r\nFormat: A".toList, [], ",B\n; x\nDial".toList].map utf8)) =
    .ok ⟨⟨.section .events, ⟨3, some .events, some "A,B".toList, none⟩⟩, "Dial".toList, []⟩ := by decide +kernel

/-- **C40.** What is processed: the lines of the text that are ended, without their line ends, in order; the rest is kept. -/
theorem C40_lines (pieces : List Str) (last : Str) (h : ∀ c ∈ pieces ++ [last], c.getLast? ≠ some '\r') {ls : List Str} {r : Str}
    (hc : Cut (pieces.flatten ++ last) ls r) :
    Parser.new.feedAll ((pieces ++ [last]).map utf8) = .ok ⟨Proc.new.run ls, r, []⟩ := by
  rw [feedAll_flatten pieces Parser.new last (fun c hc => h c (List.mem_append_left _ hc)), feed_utf8]
  by_cases he : pieces.flatten ++ last = []
  · rw [if_pos he]
    rw [he] at hc
    obtain ⟨h1, h2⟩ := cut_unique hc (.rest [] (by simp))
    rw [h1, h2]
    rfl
  · rw [if_neg he, text_spec Parser.new _ he hc]
    have hr : r.getLast? ≠ some '\r' := by
      by_cases h0 : r = []
      · subst h0; simp
      · rw [← cut_last hc h0]
        have : ∀ (l : List Str), (∀ c ∈ l, c.getLast? ≠ some '\r') → l.flatten.getLast? ≠ some '\r' := by
          intro l hl
          induction l with
          | nil => simp
          | cons c l ih =>
            rw [List.flatten_cons, List.getLast?_append]
            have ih := ih (fun d hd => hl d (List.mem_cons_of_mem _ hd))
            cases hg : l.flatten.getLast? with
            | none => simpa using hl c (by simp)
            | some x => rw [hg] at ih; simpa using ih
        have := this _ h
        rwa [List.flatten_append, List.flatten_singleton] at this
    rw [if_neg hr]
    rfl

example : Cut "[Events]\r\nFormat: A,B\nDial".toList ["[Events]".toList, "Format: A,B".toList] "Dial".toList :=
  .line "[Events]\r".toList _ _ _ (by decide) (.line "Format: A,B".toList _ _ _ (by decide) (.rest _ (by decide)))

/-- **C40, disagreement.** A piece that ends with a carriage return is taken for ended lines: the line is cut there. -/
theorem C40_carriage_return_violated :
    ¬ ∀ (a b : Str), Parser.new.feedAll [utf8 a, utf8 b] = Parser.new.feedAll [utf8 (a ++ b)] := by
  intro h
  have := h "[Events]\r".toList "\n".toList
  revert this
  decide +kernel

/-- **C40, disagreement.** A piece that ends within a character is refused, although the whole is a text. -/
theorem C40_bytes_violated :
    ¬ ∀ (a b : List Nat), Parser.new.feedAll [a ++ b] ≠ .err → Parser.new.feedAll [a, b] ≠ .err := by
  intro h
  exact h [0xC3] [0xA9] (by decide +kernel) (by decide +kernel)

/-- **C40, disagreement.** No section is ever delivered, whatever was fed. -/
theorem C40_sections_violated (chunks : List (List Nat)) (p : Parser) (h : Parser.new.feedAll chunks = .ok p) : p.finish = [] := by
  have : ∀ (l : List (List Nat)) (q : Parser), q.sections = [] → q.feedAll l = .ok p → p.sections = [] := by
    intro l
    induction l with
    | nil => intro q hq h; injection h with h; rw [← h]; exact hq
    | cons c l ih =>
      intro q hq h
      rw [Parser.feedAll] at h
      cases hf : q.feed c with
      | err => rw [hf] at h; cases h
      | panic => rw [hf] at h; cases h
      | ok q' =>
        rw [hf] at h
        refine ih q' ?_ h
        unfold Parser.feed at hf
        by_cases hc : c = []
        · rw [if_pos hc] at hf; injection hf with hf; rw [← hf]; exact hq
        · rw [if_neg hc] at hf
          cases hd : decode c with
          | none => rw [hd] at hf; cases hf
          | some s =>
            rw [hd] at hf
            injection hf with hf
            rw [← hf]
            exact hq
  exact this chunks Parser.new rfl h

/-- **C40.** Bytes are refused exactly if they are not the encoding of a text, and then nothing has changed. -/
theorem C40_refused (p : Parser) (chunk : List Nat) : p.feed chunk = .err ↔ ¬ ∃ s : List Char, utf8 s = chunk := by
  unfold Parser.feed
  by_cases hc : chunk = []
  · rw [if_pos hc]
    simp only [reduceCtorEq, false_iff, Classical.not_not]
    exact ⟨[], hc ▸ rfl⟩
  · rw [if_neg hc]
    cases hd : decode chunk with
    | none =>
      simp only [true_iff]
      rintro ⟨s, rfl⟩
      rw [decode_utf8] at hd
      cases hd
    | some s =>
      simp only [reduceCtorEq, false_iff, Classical.not_not]
      exact ⟨s, decode_sound hd⟩

example : Parser.new.feed [0xED, 0xA0, 0x80] = .err ∧ Parser.new.feed [0xC0, 0x80] = .err ∧ Parser.new.feed [0xFF] = .err ∧
    Parser.new.feed [0xF0, 0x9F, 0x98, 0x80] ≠ .err := by decide +kernel

/-- **C84.** After any lines the current section is that of the last header, both in the state and in the context, and the
line number is the number of lines. -/
theorem C84_section (ls : List Str) : After none ls (Proc.new.run ls).state.current ∧
    (Proc.new.run ls).ctx.current = (Proc.new.run ls).state.current ∧ (Proc.new.run ls).ctx.line = ls.length := by
  obtain ⟨h1, h2, h3⟩ := run_spec ls Proc.new rfl
  refine ⟨h3, h2, ?_⟩
  rw [h1]
  simp [Proc.new]

example : Header " [ Events ] ".toList .events :=
  ⟨"[ Events ]".toList, " Events ".toList, "Events".toList, (by decide : trim " [ Events ] ".toList = "[ Events ]".toList) ▸ InfoCmd.stripped_trim _,
    rfl, (by decide : trim " Events ".toList = "Events".toList) ▸ InfoCmd.stripped_trim _, .inl (by decide)⟩

/-- **C84, partial.** A line that begins with `Format:` is remembered, if the processor is between events.  (Directly after an
event it is not: see `C84_format_violated`.) -/
theorem C84_format_partial (p : Proc) (line f g : Str) (hl : Stripped line ("Format:".toList ++ f)) (hf : Stripped f g) :
    (p.state = .section .events → (p.line line).ctx.eventsFormat = some g) ∧
    (p.state = .section .styles → (p.line line).ctx.stylesFormat = some g) := by
  have ht := Handlers.stripped_eq hl
  have hg := Handlers.stripped_eq hf
  have n1 : ¬ (trim line = [] ∨ startsWith [';'] (trim line) = true ∨ startsWith ['!', ':'] (trim line) = true) := by
    rw [ht]
    rintro (h | h | h)
    · simp at h
    · obtain ⟨t, ht⟩ := Handlers.startsWith_iff'.1 h; simp at ht
    · obtain ⟨t, ht⟩ := Handlers.startsWith_iff'.1 h; simp at ht
  have n2 : ¬ (startsWith ['['] (trim line) = true ∧ endsWith [']'] (trim line) = true) := by
    rw [ht]
    rintro ⟨h, _⟩
    obtain ⟨t, ht⟩ := Handlers.startsWith_iff'.1 h
    simp at ht
  constructor
  · intro hs
    unfold Proc.line
    simp only
    rw [if_neg n1, if_neg n2, hs]
    simp only [Proc.content, Proc.eventsLine]
    rw [ht, stripPrefix_append]
    simp only
    rw [hg]
  · intro hs
    unfold Proc.line
    simp only
    rw [if_neg n1, if_neg n2, hs]
    simp only [Proc.content, Proc.stylesLine]
    rw [ht, stripPrefix_append]
    simp only
    rw [hg]

example : (Proc.new.run ["[Events]".toList, " Format: Layer, Text ".toList]).ctx.eventsFormat = some "Layer, Text".toList := by decide

/-- **C84, disagreement.** A line directly after an event is swallowed, whatever it is: the list of fields is not changed. -/
theorem C84_format_violated :
    ¬ ∀ (ls : List Str) (f : Str), (Proc.new.run ls).state.current = some .events →
        (Proc.new.run (ls ++ ["Format: ".toList ++ f])).ctx.eventsFormat = some (trim f) := by
  intro h
  have := h ["[Events]".toList, "Dialogue: x".toList] "Text".toList (by decide)
  revert this
  decide

/-- **C84, disagreement.** A section of styles that the script parser reads is unknown to the streaming parser. -/
theorem C84_styles_violated :
    (Proc.new.run ["[V4++ Styles]".toList]).state.current = some .unknown ∧
    (Verif.Parser.parse "[V4++ Styles]\n".toList).map (fun s => s.sections) = some [.styles []] := by
  decide +kernel

end Verif.Props
