import Verif.Lemmas.LineNo
/-! Property C74: the line numbers of parsed things. -/
namespace Verif
open Verif.Ast
open Verif.Parser
open Verif.Spec.Script
open Verif.Spec.LineNo

private theorem split_at (s : Str) : ∀ p : Str, splitOn '\n' (p ++ '\n' :: s) = splitOn '\n' p ++ splitOn '\n' s := by
  intro p
  rcases h : splitOnce '\n' p with _ | ⟨a, b⟩
  · rw [splitOn_append_sep _ (splitOnce_eq_none h), splitOn_of_not_mem (splitOnce_eq_none h)]; rfl
  · obtain ⟨e, ha⟩ := splitOnce_some h
    have hlt : b.length < p.length := by rw [e]; simp; omega
    have ih := split_at s b
    rw [e, List.append_assoc, List.cons_append, splitOn_append_sep _ ha, splitOn_append_sep _ ha, ih]; rfl
termination_by p => p.length

/-- The lines of a source, as needed for the examples. -/
theorem lines_at {L : List Str} (hL : ∀ l ∈ L, '\n' ∉ l) (hne : L ≠ []) (hbom : (unlines L).head? ≠ some (Char.ofNat 0xFEFF))
    {pre l post : Str} (e : unlines L = pre ++ l ++ post) (hp : LineStart pre) (hl : '\n' ∉ l)
    (hpost : post = [] ∨ post.head? = some '\n') : l ∈ L ∧ (post ≠ [] → l ∈ L.dropLast) := by
  have hs := split_unlines hne hL
  have hx : splitOn '\n' (l ++ post) = [l] ∧ post = [] ∨ ∃ q, splitOn '\n' (l ++ post) = l :: q ∧ q ≠ [] := by
    rcases hpost with h | h
    · left; rw [h, List.append_nil]; exact ⟨splitOn_of_not_mem hl, rfl⟩
    · right
      cases post with
      | nil => cases h
      | cons c q =>
        have : c = '\n' := by simpa using h
        rw [this, splitOn_append_sep _ hl]
        exact ⟨_, rfl, splitOn_ne_nil _ _⟩
  have hy : ∃ A, L = A ++ splitOn '\n' (l ++ post) := by
    rcases hp with h | h | h
    · exact ⟨[], by rw [← hs, e, h]; simp⟩
    · exact absurd (by rw [e, h]; rfl) hbom
    · have : pre = pre.dropLast ++ ['\n'] := by
        have hn : pre ≠ [] := by intro h2; rw [h2] at h; cases h
        conv => lhs; rw [← List.dropLast_concat_getLast hn]
        rw [List.getLast?_eq_some_getLast hn] at h
        rw [Option.some.inj h]
      refine ⟨splitOn '\n' pre.dropLast, ?_⟩
      rw [← split_at, ← hs, e]
      conv => lhs; rw [this]
      simp
  obtain ⟨A, hA⟩ := hy
  rcases hx with ⟨h1, h2⟩ | ⟨q, h1, h2⟩
  · rw [h1] at hA
    exact ⟨by rw [hA]; simp, fun h => absurd h2 h⟩
  · rw [h1] at hA
    refine ⟨by rw [hA]; simp, fun _ => ?_⟩
    rw [hA, List.dropLast_append_of_ne_nil (by simp), List.dropLast_cons_of_ne_nil h2]; simp

/-- **C74 (line numbers), partial.** In every source with no blank line (but perhaps the last) in which every line that
opens a section has its closing bracket, the line number given for each event, style, embedded font and graphic, and for
each script info section, is the number of the line where it begins.

Missing: sources with blank lines (where it fails, `C74_blank_violated`) or unclosed brackets. -/
theorem C74_lines_partial {src : Str} (hb : NoBlankLine src) (hc : Closed src) {s : Script} (h : parse src = some s) :
    (∀ l, Section.events l ∈ s.sections → ∀ e ∈ l, LineOf src e.2.start e.2.line) ∧
    (∀ l, Section.styles l ∈ s.sections → ∀ e ∈ l, LineOf src e.2.start e.2.line) ∧
    (∀ l, Section.fonts l ∈ s.sections → ∀ m ∈ l, LineOf src m.span.start m.span.line) ∧
    (∀ l, Section.graphics l ∈ s.sections → ∀ m ∈ l, LineOf src m.span.start m.span.line) ∧
    (∀ fs sp, Section.info fs sp ∈ s.sections → LineOf src sp.start sp.line) := by
  have := parse_good hb hc h
  exact ⟨fun l hl => this _ hl, fun l hl => this _ hl, fun l hl => this _ hl, fun l hl => this _ hl, fun _ _ hl => this _ hl⟩

/-- A source without blank lines, and its lines. -/
def doc2 : List Str := ["; a".toList, "[Script Info]".toList, "Title: x".toList, " [Events] ".toList,
  "Dialogue: 0,0:00:00.00,0:00:01.00,D,,0,0,0,,a, b".toList, []]

private theorem doc2_good : NoBlankLine (unlines doc2) ∧ Closed (unlines doc2) := by
  have h1 : ∀ l ∈ doc2, '\n' ∉ l := by decide
  have h2 : (unlines doc2).head? ≠ some (Char.ofNat 0xFEFF) := by decide
  constructor
  · intro pre l post e hp hl
    have := (lines_at h1 (by decide) h2 e hp hl (Or.inr rfl)).2 (by simp)
    have hk : ∀ l ∈ doc2.dropLast, ∃ c ∈ l, ¬ isWs c = true := by decide
    obtain ⟨c, g1, g2⟩ := hk l this
    exact ⟨c, g1, fun hw => g2 ((SrtDoc.white_iff c).2 hw)⟩
  · intro pre l post e hp hl hpost hop
    have := (lines_at h1 (by decide) h2 e hp hl hpost).1
    exact (by decide : ∀ l ∈ doc2, opens l = true → ']' ∈ l) l this (opens_spec.2 hop)

example {s : Script} (h : parse (unlines doc2) = some s) :
    ∀ l, Section.events l ∈ s.sections → ∀ e ∈ l, LineOf (unlines doc2) e.2.start e.2.line :=
  (C74_lines_partial doc2_good.1 doc2_good.2 h).1

/-- Its event is in line 5. -/
example : (parse (unlines doc2)).map (fun s => s.sections.any (fun x => match x with
    | .events [(_, sp)] => sp.line = 5
    | _ => false)) = some true := by decide

/-- **C74 is violated**: after a blank line before a section the line numbers are too small. -/
theorem C74_blank_violated : ∃ (src : Str) (e : Event) (sp : Span),
    (parse src).map (fun s => s.sections) = some [.events [(e, sp)]] ∧ ¬ LineOf src sp.start sp.line := by
  refine ⟨"\n[Events]\nComment: 0,0:00:00.00,0:00:01.00,D,,0,0,0,,a".toList,
    ⟨.comment, ['0'], "0:00:00.00".toList, "0:00:01.00".toList, ['D'], [], ['0'], ['0'], ['0'], none, none, [], ['a']⟩,
    ⟨10, 54, 2, 1⟩, by decide, ?_⟩
  rintro ⟨pre, post, e, hs, hn⟩
  have h1 : pre.length = 10 := by
    have hall : ∀ c ∈ pre, Char.utf8Size c = 1 := by
      intro c hc
      have : c ∈ "\n[Events]\nComment: 0,0:00:00.00,0:00:01.00,D,,0,0,0,,a".toList := by rw [e]; simp [hc]
      exact (by decide : ∀ c ∈ "\n[Events]\nComment: 0,0:00:00.00,0:00:01.00,D,,0,0,0,,a".toList, Char.utf8Size c = 1) c this
    have : ∀ p : Str, (∀ c ∈ p, Char.utf8Size c = 1) → size p = p.length := by
      intro p
      induction p with
      | nil => intro _; rfl
      | cons c p ih =>
        intro h
        have e1 : size (c :: p) = Char.utf8Size c + size p := by simp [size]
        rw [e1, ih (fun x hx => h x (by simp [hx])), h c (by simp), List.length_cons]; omega
    rw [← this pre hall, hs]
  have h2 : pre = "\n[Events]\n".toList := by
    have := congrArg (List.take 10) e
    rw [List.take_append_of_le_length (by omega), List.take_of_length_le (l := pre) (by omega)] at this
    exact this.symm
  rw [h2] at hn
  exact absurd hn (by decide)

end Verif
