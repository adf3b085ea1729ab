import Verif.Lemmas.SectionExt
/-! Property C133: sections the library does not know, and the processors of extensions. -/
namespace Verif.Props.SectionExt
open Verif Verif.Parser Verif.SectionExt
open Verif.Spec.Script Verif.Spec.SectionExt
open Verif.Spec.EventCmd (White)
open Verif.Spec.InfoCmd (Stripped)

/-- **C133 (processors change nothing else).** Parsing with any registry, or none, always ends, and gives the version,
sections, formats and issues that parsing without one gives; what processors and suggestions add is only added. -/
theorem C133_same (reg : Option Registry) (src : Str) : ∃ s t, parseWith reg src = some s ∧ parse src = some t ∧
    s.version = t.version ∧ s.sections = t.sections ∧ s.stylesFmt = t.stylesFmt ∧ s.eventsFmt = t.eventsFmt ∧
    plain s.notes = t.issues := by
  unfold parseWith parse
  by_cases h : byteLen src > 50 * 1024 * 1024
  · rw [if_pos h, if_pos h]
    exact ⟨_, _, rfl, rfl, rfl, rfl, rfl, rfl, rfl⟩
  · rw [if_neg h, if_neg h]
    have hi : (initial src).issues = [] := by
      unfold initial
      split
      · split <;> rfl
      · rfl
    obtain ⟨q, ms, e1, e2, e3, -⟩ := loopExt_same reg (src.length + 1) (initial src) []
      (by have := initial_rest src; omega) hi (fun _ => rfl)
    rw [e1, e2]
    exact ⟨_, _, rfl, rfl, rfl, rfl, rfl, rfl, e3.symm⟩

/-- A processor that counts lines. -/
def counter : Processor := fun _ ls => if ls.length = 2 then .processed else .failed "two lines please".toList

/-- A registry with that processor for the sections `Odd` and `Events`. -/
def oddReg : Registry := fun n => if n = "Odd".toList ∨ n = "Events".toList then some counter else none

def oddSrc : Str := "[Odd]\na\n\nb\n\n[Events]\nDialogue: 0,0:00:00.00,0:00:01.00,D,,0,0,0,,x\n[Odd]\nc".toList

set_option maxRecDepth 20000 in
example : (parseWith (some oddReg) oddSrc).map (fun s => (s.sections.length, s.notes)) = some (1,
    [.processed "Odd".toList 2, .base (.unknown "Odd".toList 5), .failed "Odd".toList "two lines please".toList 8,
     .base (.unknown "Odd".toList 8)]) := by decide +kernel

private theorem whole {src : Str} {segs : List Seg} (reg : Option Registry) (hsize : size src ≤ 50 * 1024 * 1024)
    (h : Document src segs) : ∃ s, parseWith reg src = some s ∧
      (∀ r, reg = some r → Asked r segs (fromProcessors s.notes)) ∧ (reg = none → fromProcessors s.notes = []) ∧
      (reg = none → (∀ g ∈ segs, ∀ n, Stripped g.raw n → ¬ Known n → ∀ l ∈ g.body, ¬ Begins "Format:" l) →
        Hinted segs (hints s.notes)) := by
  obtain ⟨bom, junk, rest, lines, e, hbom, hrest, hnl, hj, hseg⟩ := h
  have hinit : (initial src).rest = rest := by
    rcases hbom with rfl | ⟨rfl, hne⟩
    · have ei : initial (Char.ofNat 0xFEFF :: rest) = ⟨rest, 3, 1, .ass4, [], [], none, none⟩ := by
        unfold initial; simp only [if_true]
      rw [e, List.singleton_append, ei]
    · rw [e, List.nil_append]
      unfold initial
      cases rest with
      | nil => rfl
      | cons c s =>
        have : c ≠ Char.ofNat 0xFEFF := fun h => hne (by rw [h]; rfl)
        simp only [if_neg this]
  have ht : tail (initial src).rest = trimStart (unlines lines) :=
    (body_lines hseg hj hnl (by rw [hinit, hrest])).2
  have hlen : (initial src).rest.length < src.length + 1 := by have := initial_rest src; omega
  obtain ⟨q, ms, g1, g2, g3, g4⟩ := loopExt_doc reg hseg (ns := []) hlen (fun l hl => hnl l (by simp [hl])) ht
  refine ⟨⟨q.version, q.sections, ms, q.stylesFmt, q.eventsFmt⟩, ?_, g2, g3, g4⟩
  unfold parseWith
  have : ¬ byteLen src > 50 * 1024 * 1024 := by rw [← size_eq]; omega
  rw [if_neg this, g1]
  rfl

/-- **C133 (which sections a processor gets), partial.** For every source of at most 50 MB in which every line that opens
a section has its closing bracket, and every registry: each section the library does not know, and no other, is given in
order to the processor registered under exactly what stands between the brackets, with that as the header and the lines
that are not empty (but for blank lines at the end); each success and each failure with its message is reported, once.

Missing: sources with an unclosed bracket. -/
theorem C133_processors_partial {src : Str} {segs : List Seg} (reg : Registry) (hsize : size src ≤ 50 * 1024 * 1024)
    (h : Document src segs) : ∃ s, parseWith (some reg) src = some s ∧ Asked reg segs (fromProcessors s.notes) := by
  obtain ⟨s, e, h1, -, -⟩ := whole (some reg) hsize h
  exact ⟨s, e, h1 reg rfl⟩

/-- Its sections. -/
def oddSegs : List Seg :=
  [⟨"Odd".toList, 6, ["a".toList, [], "b".toList, []]⟩,
    ⟨"Events".toList, 21, ["Dialogue: 0,0:00:00.00,0:00:01.00,D,,0,0,0,,x".toList]⟩, ⟨"Odd".toList, 73, ["c".toList]⟩]

/-- The example falls into three sections. -/
theorem odd_document : Document oddSrc oddSegs := by
  refine ⟨[], [], oddSrc, ["[Odd]".toList, "a".toList, [], "b".toList, [], "[Events]".toList,
    "Dialogue: 0,0:00:00.00,0:00:01.00,D,,0,0,0,,x".toList, "[Odd]".toList, "c".toList], rfl, Or.inr ⟨rfl, by decide⟩, by decide,
    by decide, by simp, ?_⟩
  refine .cons (body := ["a".toList, [], "b".toList, []]) ⟨[], [], by decide, by simp, by decide⟩ ?_ ?_
  · intro l hl
    exact not_opens_spec.1 ((by decide : ∀ l ∈ ["a".toList, [], "b".toList, []], opens l = false) l hl)
  refine .cons (body := ["Dialogue: 0,0:00:00.00,0:00:01.00,D,,0,0,0,,x".toList]) ⟨[], [], by decide, by simp, by decide⟩ ?_ ?_
  · intro l hl
    exact not_opens_spec.1 ((by decide : ∀ l ∈ ["Dialogue: 0,0:00:00.00,0:00:01.00,D,,0,0,0,,x".toList], opens l = false) l hl)
  refine .cons (body := ["c".toList]) (rest := []) ⟨[], [], by decide, by simp, by decide⟩ ?_ (.nil _)
  intro l hl
  exact not_opens_spec.1 ((by decide : ∀ l ∈ ["c".toList], opens l = false) l hl)

example : ∃ s, parseWith (some oddReg) oddSrc = some s ∧ Asked oddReg oddSegs (fromProcessors s.notes) :=
  C133_processors_partial oddReg (by decide) odd_document

/-- **C133 (the suggestion), partial.** Without a registry, for every such source: each unknown section whose lines
include one that looks like a style, an event or a title gets one suggestion, by the first such line.

Missing: sections with format lines (where the suggestion can be wrong, `C133_format_violated`), and parsing with a registry
(where there is none, `C133_registry_violated`). -/
theorem C133_suggestion_partial {src : Str} {segs : List Seg} (hsize : size src ≤ 50 * 1024 * 1024) (h : Document src segs)
    (hf : ∀ g ∈ segs, ∀ n, Stripped g.raw n → ¬ Known n → ∀ l ∈ g.body, ¬ Begins "Format:" l) :
    ∃ s, parseWith none src = some s ∧ Hinted segs (hints s.notes) ∧ fromProcessors s.notes = [] := by
  obtain ⟨s, e, -, h2, h3⟩ := whole none hsize h
  exact ⟨s, e, h3 rfl hf, h2 rfl⟩

example : ∃ s, parseWith none oddSrc = some s ∧ Hinted oddSegs (hints s.notes) ∧ fromProcessors s.notes = [] := by
  refine C133_suggestion_partial (by decide) odd_document ?_
  intro g hg n _ _ l hl hb
  have key : ∀ l : Line, startsWith "Format:".toList (trimStart l) = false → ¬ Begins "Format:" l := by
    intro l h hb
    rw [(begins_iff (word := "Format:") (c := 'F') (cs := "ormat:".toList) rfl (by decide) l).2 hb] at h
    cases h
  simp only [oddSegs, List.mem_cons, List.not_mem_nil, or_false] at hg
  rcases hg with rfl | rfl | rfl <;> simp only [List.mem_cons, List.not_mem_nil, or_false] at hl
  · rcases hl with rfl | rfl | rfl | rfl <;> exact key _ (by decide) hb
  · subst hl; exact key _ (by decide) hb
  · subst hl; exact key _ (by decide) hb

set_option maxRecDepth 20000 in
/-- A misspelt section is told apart. -/
example : (parseWith none "[Styles]\nStyle: Default,Arial\n".toList).map (·.notes) =
    some [.hint .styles 3, .base (.unknown "Styles".toList 3)] := by decide +kernel

/-- A registry without any processor. -/
def noReg : Registry := fun _ => none

set_option maxRecDepth 20000 in
/-- **C133 (no suggestion with a registry), violated.** As soon as a registry is given, even an empty one, no source at all
gets a suggestion: the lines of the unknown section have been passed over before they are looked at. -/
theorem C133_registry_violated : (∀ (reg : Registry) (src : Str) (s : Parsed), parseWith (some reg) src = some s →
      hints s.notes = []) ∧
    ∃ src, (parseWith none src).map (fun s => hints s.notes) = some [.styles] ∧
      (parseWith (some noReg) src).map (fun s => hints s.notes) = some [] := by
  refine ⟨?_, "[Styles]\nStyle: Default,Arial\n".toList, by decide +kernel, by decide +kernel⟩
  intro reg src s e
  unfold parseWith at e
  by_cases h : byteLen src > 50 * 1024 * 1024
  · rw [if_pos h] at e
    obtain rfl := Option.some.inj e
    rfl
  · rw [if_neg h] at e
    have hi : (initial src).issues = [] := by
      unfold initial
      split
      · split <;> rfl
      · rfl
    obtain ⟨q, ms, e1, -, -, e4⟩ := loopExt_same (some reg) (src.length + 1) (initial src) []
      (by have := initial_rest src; omega) hi (fun _ => rfl)
    rw [e1] at e
    obtain rfl := Option.some.inj e
    exact e4 (by simp)

set_option maxRecDepth 20000 in
/-- **C133 (a wrong suggestion), violated.** A misspelt styles section that begins with its format line is taken for an
events section when the source has events further down: the whole rest of the source is searched for `Dialogue:`, not the
section. -/
theorem C133_format_violated : ∃ src, (parseWith none src).map (fun s => hints s.notes) = some [.events] ∧
    src = ("[V4+ Style]\nFormat: Name, Fontname\nStyle: Default,Arial\n" ++
      "[Events]\nDialogue: 0,0:00:00.00,0:00:01.00,D,,0,0,0,,x\n").toList :=
  ⟨_, by decide +kernel, rfl⟩

/-- **C133 (a processed section is still reported as unknown), violated.** Every unknown section is reported as such, also
where a processor has processed it. -/
theorem C133_processed_violated (reg : Registry) : (∀ src s t, parseWith (some reg) src = some s → parse src = some t →
      unknowns (plain s.notes) = unknowns t.issues) ∧
    ∃ s, parseWith (some aegisub) "[Aegisub Project]\nScroll Position: 3\n".toList = some s ∧
      fromProcessors s.notes = [("Aegisub Project".toList, none)] ∧
      unknowns (plain s.notes) = ["Aegisub Project".toList] := by
  constructor
  · intro src s t h1 h2
    obtain ⟨s', t', e1, e2, -, -, -, -, e⟩ := C133_same (some reg) src
    rw [h1] at e1; rw [h2] at e2
    obtain rfl := Option.some.inj e1
    obtain rfl := Option.some.inj e2
    rw [e]
  · exact ⟨⟨.ass4, [], [.processed "Aegisub Project".toList 2, .base (.unknown "Aegisub Project".toList 3)], none, none⟩,
      (by set_option maxRecDepth 20000 in decide +kernel), (by decide), (by decide)⟩

set_option maxRecDepth 20000 in
/-- **C133 (case and blanks in the name), violated.** The processor for `Aegisub Project` takes the header in any case, but
is looked up by the exact text between the brackets: `[aegisub project]` and `[Aegisub Project ]` never reach it, while
blanks there do not matter for the sections the library knows. -/
theorem C133_case_violated :
    project "aegisub project".toList [] = .processed ∧
    (parseWith (some aegisub) "[aegisub project]\na: 1\n".toList).map (fun s => fromProcessors s.notes) = some [] ∧
    (parseWith (some aegisub) "[Aegisub Project ]\na: 1\n".toList).map (fun s => fromProcessors s.notes) = some [] ∧
    (parseWith (some aegisub) "[Script Info ]\na: 1\n".toList).map (fun s => s.notes) = some [] := by
  refine ⟨by decide, by decide +kernel, by decide +kernel, by decide +kernel⟩

/-- A line the project processor takes. -/
def ProjectLine (l : Line) : Prop :=
  ∃ x, Stripped l x ∧ (x = [] ∨ x.head? = some '!' ∨ '=' ∈ x ∨ ':' ∈ x)

/-- The same word but for the case of the letters A to Z. -/
def SameWord (a b : List Char) : Prop := a.map Char.toLower = b.map Char.toLower

private theorem startsWith_head {c : Char} {s : Str} : startsWith [c] s = true ↔ s.head? = some c := by
  rw [startsWith_iff]
  cases s with
  | nil => simp
  | cons d s => simp

private theorem projectLine_iff (l : Str) : ProjectLine l ↔
    (trim l = [] ∨ startsWith ['!'] (trim l) = true ∨ '=' ∈ trim l ∨ ':' ∈ trim l) := by
  rw [startsWith_head]
  constructor
  · rintro ⟨x, hx, h⟩
    obtain rfl := Handlers.stripped_eq hx
    exact h
  · intro h
    exact ⟨trim l, InfoCmd.stripped_trim l, h⟩

/-- **C133 (the Aegisub processors).** The project processor takes a section under its name, in any case, exactly when each
line is blank, begins with `!`, or has `=` or `:` in it; the extradata processor exactly when no line has more than 10000
bytes without its blanks; under another name both ignore the section. -/
theorem C133_aegisub (header : Str) (lines : List Str) :
    (project header lines = .processed ↔ SameWord header "Aegisub Project".toList ∧ ∀ l ∈ lines, ProjectLine l) ∧
    (project header lines = .ignored ↔ ¬ SameWord header "Aegisub Project".toList) ∧
    (extradata header lines = .processed ↔ SameWord header "Aegisub Extradata".toList ∧
      ∀ l ∈ lines, ∀ x, Stripped l x → size x ≤ 10000) ∧
    (extradata header lines = .ignored ↔ ¬ SameWord header "Aegisub Extradata".toList) := by
  have hp : (projectLines lines = .processed ↔ ∀ l ∈ lines, ProjectLine l) ∧ projectLines lines ≠ .ignored := by
    induction lines with
    | nil => exact ⟨by simp [projectLines], by simp [projectLines]⟩
    | cons l ls ih =>
      rw [projectLines]
      simp only [List.mem_cons, forall_eq_or_imp, projectLine_iff l]
      by_cases h1 : (trim l = [] || startsWith ['!'] (trim l)) = true
      · rw [if_pos h1]
        have h1' : trim l = [] ∨ startsWith ['!'] (trim l) = true := by simpa using h1
        refine ⟨?_, ih.2⟩
        rw [ih.1]
        constructor
        · exact fun h => ⟨h1'.elim Or.inl (fun h => Or.inr (Or.inl h)), h⟩
        · exact fun h => h.2
      · rw [if_neg h1]
        have h1' : ¬ (trim l = [] ∨ startsWith ['!'] (trim l) = true) := by simpa using h1
        by_cases h2 : (!(trim l).contains '=' && !(trim l).contains ':') = true
        · rw [if_pos h2]
          have h2' : '=' ∉ trim l ∧ ':' ∉ trim l := by simpa using h2
          refine ⟨⟨nofun, ?_⟩, by simp⟩
          rintro ⟨h | h | h | h, -⟩
          · exact absurd (Or.inl h) h1'
          · exact absurd (Or.inr h) h1'
          · exact absurd h h2'.1
          · exact absurd h h2'.2
        · rw [if_neg h2]
          have h2' : '=' ∈ trim l ∨ ':' ∈ trim l := by
            by_cases g : '=' ∈ trim l
            · exact Or.inl g
            · right
              apply Classical.byContradiction
              intro g'
              exact h2 (by simp [g, g'])
          refine ⟨?_, ih.2⟩
          rw [ih.1]
          constructor
          · exact fun h => ⟨Or.inr (Or.inr h2'), h⟩
          · exact fun h => h.2
  have he : (extradataLines lines = .processed ↔ ∀ l ∈ lines, ∀ x, Stripped l x → size x ≤ 10000) ∧
      extradataLines lines ≠ .ignored := by
    have key : ∀ l : Str, (∀ x, Stripped l x → size x ≤ 10000) ↔ byteLen (trim l) ≤ 10000 := by
      intro l
      constructor
      · exact fun h => h _ (InfoCmd.stripped_trim l)
      · intro h x hx
        obtain rfl := Handlers.stripped_eq hx
        exact h
    clear hp
    induction lines with
    | nil => exact ⟨by simp [extradataLines], by simp [extradataLines]⟩
    | cons l ls ih =>
      rw [extradataLines]
      simp only [List.mem_cons, forall_eq_or_imp]
      rw [key l]
      by_cases h1 : trim l = []
      · rw [if_pos h1, ih.1, h1]
        exact ⟨⟨fun h => ⟨by decide, h⟩, fun h => h.2⟩, ih.2⟩
      · rw [if_neg h1]
        by_cases h2 : byteLen (trim l) > 10000
        · rw [if_pos h2]
          exact ⟨⟨nofun, fun h => by omega⟩, by simp⟩
        · rw [if_neg h2, ih.1]
          exact ⟨⟨fun h => ⟨by omega, h⟩, fun h => h.2⟩, ih.2⟩
  unfold project extradata
  have e : ∀ a b : Str, eqNoCase a b = true ↔ SameWord a b := by
    intro a b; unfold eqNoCase SameWord; simp
  refine ⟨?_, ?_, ?_, ?_⟩
  · by_cases h : eqNoCase header "Aegisub Project".toList = true
    · rw [if_pos h, hp.1]
      exact ⟨fun g => ⟨(e _ _).1 h, g⟩, fun g => g.2⟩
    · rw [if_neg h]
      exact ⟨nofun, fun g => absurd ((e _ _).2 g.1) h⟩
  · by_cases h : eqNoCase header "Aegisub Project".toList = true
    · rw [if_pos h]
      exact ⟨fun g => absurd g hp.2, fun g => absurd ((e _ _).1 h) g⟩
    · rw [if_neg h]
      exact ⟨fun _ g => h ((e _ _).2 g), fun _ => rfl⟩
  · by_cases h : eqNoCase header "Aegisub Extradata".toList = true
    · rw [if_pos h, he.1]
      exact ⟨fun g => ⟨(e _ _).1 h, g⟩, fun g => g.2⟩
    · rw [if_neg h]
      exact ⟨nofun, fun g => absurd ((e _ _).2 g.1) h⟩
  · by_cases h : eqNoCase header "Aegisub Extradata".toList = true
    · rw [if_pos h]
      exact ⟨fun g => absurd g he.2, fun g => absurd ((e _ _).1 h) g⟩
    · rw [if_neg h]
      exact ⟨fun _ g => h ((e _ _).2 g), fun _ => rfl⟩

example : project "AEGISUB project".toList ["Scroll Position: 3".toList, "!x".toList, " ".toList] = .processed ∧
    project "Aegisub Project".toList ["abc".toList] = .failed projectMsg ∧
    extradata "Aegisub Project".toList [] = .ignored := by decide

end Verif.Props.SectionExt
