import Verif.Model.BuiltinExt
import Verif.Spec.BuiltinExt
import Verif.Lemmas.Resolved
import Verif.Props.Complete
import Verif.Props.Highlight
/-! Property C156: settings and commands of the built-in extensions. -/
namespace Verif.Props.BuiltinExt
open Verif
open Verif.BuiltinExt
open Verif.Spec.BuiltinExt
open Verif.Spec.Resolved (Whole)
open Verif.Spec.Complete (bytes)

theorem flag_switch (cfg : Str → Option Str) (key : String) (old : Bool) : Switch (cfg key.toList) old (flag cfg key old) := by
  unfold Switch flag
  cases cfg key.toList with
  | none => rfl
  | some v => exact decide_eq_true_iff

theorem limit_limit (cfg : Str → Option Str) (key : String) (old : Nat) : Limit (cfg key.toList) old (limit cfg key old) := by
  unfold Limit limit
  cases cfg key.toList with
  | none => exact .inr ⟨fun v n h => (by cases h), rfl⟩
  | some v =>
    dsimp only
    cases h : parseUnsigned 10 (2 ^ 64) v with
    | some n => exact .inl ⟨v, rfl, Verif.Resolved.whole_iff.1 h⟩
    | none =>
      refine .inr ⟨fun v' n e hw => ?_, rfl⟩
      injection e with e
      subst e
      rw [Verif.Resolved.whole_iff.2 hw] at h
      cases h

theorem showNat_number (n : Nat) : showNat n = number n := by
  unfold showNat number
  show _ = (Nat.repr n).toList
  unfold Nat.repr
  simp

/-- **C156 (settings of the highlighting).** After the extension was initialised it is active, and each of its settings is what the
host gives: a switch is on just for `true`, the limit is the number given; what is not given, and a limit that is no number, stays
as it was; the tokens kept stay. -/
theorem C156_syntax_settings (cfg : Str → Option Str) (s : Syntax) :
    (s.initialize cfg).state = .active ∧
    Switch (cfg "syntax.highlight_tags".toList) s.tags (s.initialize cfg).tags ∧
    Switch (cfg "syntax.semantic_highlighting".toList) s.semantic (s.initialize cfg).semantic ∧
    Switch (cfg "syntax.highlight_errors".toList) s.errors (s.initialize cfg).errors ∧
    Limit (cfg "syntax.max_tokens".toList) s.max (s.initialize cfg).max ∧
    (s.initialize cfg).cache = s.cache :=
  ⟨rfl, flag_switch .., flag_switch .., flag_switch .., limit_limit .., rfl⟩

/-- **C156 (settings of the completion).** The same for the completion.  Missing: `autocomplete.min_chars`, which is never read. -/
theorem C156_auto_settings_partial (cfg : Str → Option Str) (s : Auto) :
    (s.initialize cfg).state = .active ∧
    Switch (cfg "autocomplete.complete_fields".toList) s.fields (s.initialize cfg).fields ∧
    Switch (cfg "autocomplete.complete_styles".toList) s.styles (s.initialize cfg).styles ∧
    Switch (cfg "autocomplete.complete_tags".toList) s.tags (s.initialize cfg).tags ∧
    Switch (cfg "autocomplete.complete_values".toList) s.values (s.initialize cfg).values ∧
    Limit (cfg "autocomplete.max_suggestions".toList) s.max (s.initialize cfg).max ∧
    (s.initialize cfg).names = s.names :=
  ⟨rfl, flag_switch .., flag_switch .., flag_switch .., flag_switch .., limit_limit .., rfl⟩

/-- A host with two settings. -/
def host (k : Str) : Option Str :=
  if k = "syntax.max_tokens".toList then some "+7".toList else if k = "syntax.highlight_tags".toList then some "True".toList else none

example : ((Syntax.new).initialize host).max = 7 ∧ ((Syntax.new).initialize host).tags = false ∧
    ((Syntax.new).initialize host).semantic = true := by decide +kernel

/-- **C156 violated (a setting is never read).** The completion announces the setting `autocomplete.min_chars`, but whatever the host
gives for it, nothing differs. -/
theorem C156_schema_violated : "autocomplete.min_chars" ∈ Auto.schema ∧ ∀ (cfg cfg' : Str → Option Str) (s : Auto),
    (∀ k, k ≠ "autocomplete.min_chars".toList → cfg k = cfg' k) → s.initialize cfg = s.initialize cfg' := by
  refine ⟨by decide, fun cfg cfg' s h => ?_⟩
  unfold Auto.initialize flag limit
  rw [h "autocomplete.complete_fields".toList (by decide), h "autocomplete.complete_styles".toList (by decide),
    h "autocomplete.complete_tags".toList (by decide), h "autocomplete.complete_values".toList (by decide),
    h "autocomplete.max_suggestions".toList (by decide)]

/-- **C156 violated (settings without effect).** The switches for semantic highlighting and for errors change no token, the switch for
values changes no completion. -/
theorem C156_switch_violated (alnum : Char → Bool) (lower : Str → Str) (secs : Str → List Parser.Section) (s : Syntax) (a : Auto)
    (d : Document) (b c : Bool) (n : Nat) :
    ({ s with semantic := b, errors := c }.tokens alnum d).1 = (s.tokens alnum d).1 ∧
    { a with values := b }.completions alnum lower secs d.text n = a.completions alnum lower secs d.text n := ⟨rfl, rfl⟩

/-- **C156 (commands of the highlighting).** Every command announced is carried out, without a document those that need none; a
command that needs a document is refused without one, and any other command is refused by name.  A refused command changes nothing,
and no command changes a setting. -/
theorem C156_syntax_commands (alnum : Char → Bool) (s : Syntax) (id : Str) (doc : Option Document) :
    (((id, false) ∈ Syntax.commands ∨ (id, true) ∈ Syntax.commands ∧ doc ≠ none) →
      ∃ m data, (s.execute alnum id doc).1 = .done m data) ∧
    ((id, true) ∈ Syntax.commands → doc = none →
      (s.execute alnum id doc).2 = s ∧ ∃ rest, (s.execute alnum id doc).1 = .refused ("No active document".toList ++ rest)) ∧
    ((∀ b, (id, b) ∉ Syntax.commands) → s.execute alnum id doc = (.refused ("Unknown command: ".toList ++ id), s)) ∧
    (∃ cache, (s.execute alnum id doc).2 = { s with cache := cache }) := by
  unfold Syntax.execute
  by_cases h1 : id = "syntax.highlight".toList
  · rw [if_pos h1]
    refine ⟨fun h => ?_, fun _ h => ?_, fun h => absurd (by rw [h1]; decide) (h true), ?_⟩
    · cases doc with
      | none =>
        rcases h with h | h
        · rw [h1] at h; exact absurd h (by decide)
        · exact absurd rfl h.2
      | some d => exact ⟨_, _, rfl⟩
    · rw [h]; exact ⟨rfl, " to highlight".toList, rfl⟩
    · cases doc with
      | none => exact ⟨s.cache, rfl⟩
      | some d => exact ⟨_, rfl⟩
  · rw [if_neg h1]
    by_cases h2 : id = "syntax.clear_cache".toList
    · rw [if_pos h2]
      exact ⟨fun _ => ⟨_, _, rfl⟩, fun h => absurd (by rw [h2] at h; exact h) (by decide),
        fun h => absurd (by rw [h2]; decide) (h false), ⟨_, rfl⟩⟩
    · rw [if_neg h2]
      by_cases h3 : id = "syntax.get_tokens".toList
      · rw [if_pos h3]
        refine ⟨fun h => ?_, fun _ h => ?_, fun h => absurd (by rw [h3]; decide) (h true), ?_⟩
        · cases doc with
          | none =>
            rcases h with h | h
            · rw [h3] at h; exact absurd h (by decide)
            · exact absurd rfl h.2
          | some d => exact ⟨_, _, rfl⟩
        · rw [h]; exact ⟨rfl, [], by simp⟩
        · cases doc with
          | none => exact ⟨s.cache, rfl⟩
          | some d => exact ⟨_, rfl⟩
      · rw [if_neg h3]
        have no : ∀ b, (id, b) ∉ Syntax.commands := by
          intro b h
          unfold Syntax.commands at h
          simp only [List.mem_cons, Prod.mk.injEq, List.not_mem_nil, or_false] at h
          rcases h with h | h | h
          · exact h1 h.1
          · exact h2 h.1
          · exact h3 h.1
        refine ⟨fun h => ?_, fun h => absurd h (no _), fun _ => rfl, s.cache, rfl⟩
        rcases h with h | h
        · exact absurd h (no _)
        · exact absurd h.1 (no _)

/-- **C156 (commands of the completion).** The same for the completion; both of its commands need a document, and without one, or with
an unknown command, the program is never stopped. -/
theorem C156_auto_commands (alnum : Char → Bool) (lower : Str → Str) (secs : Str → List Parser.Section) (s : Auto) (id : Str)
    (args : List (Str × Str)) (doc : Option Document) :
    (∀ r s', s.execute alnum lower secs id args doc = .ok (r, s') →
      (∃ names, s' = { s with names := names }) ∧
      ((∃ m data, r = .done m data) ↔ (∃ b, (id, b) ∈ Auto.commands) ∧ doc ≠ none)) ∧
    ((∃ b, (id, b) ∈ Auto.commands) → doc = none →
      s.execute alnum lower secs id args doc = .ok (.refused "No active document".toList, s)) ∧
    ((∀ b, (id, b) ∉ Auto.commands) →
      s.execute alnum lower secs id args doc = .ok (.refused ("Unknown command: ".toList ++ id), s)) := by
  unfold Auto.execute
  by_cases h1 : id = "autocomplete.trigger".toList
  · rw [if_pos h1]
    have yes : (id, true) ∈ Auto.commands := by rw [h1]; decide
    refine ⟨fun r s' h => ?_, fun _ h => (by rw [h]), fun h => absurd yes (h _)⟩
    cases doc with
    | none =>
      injection h with h
      injection h with e1 e2
      refine ⟨⟨s.names, e2.symm⟩, ⟨?_, fun h => absurd rfl h.2⟩⟩
      rintro ⟨m, data, e⟩
      rw [← e1] at e; cases e
    | some d =>
      dsimp only at h
      cases hc : s.completions alnum lower secs d.text (place args d.text) with
      | err => rw [hc] at h; cases h
      | panic => rw [hc] at h; cases h
      | ok l =>
        rw [hc] at h
        injection h with h
        injection h with e1 e2
        exact ⟨⟨_, e2.symm⟩, fun _ => ⟨⟨_, yes⟩, by simp⟩, fun _ => ⟨_, _, e1.symm⟩⟩
  · rw [if_neg h1]
    by_cases h2 : id = "autocomplete.update_styles".toList
    · rw [if_pos h2]
      have yes : (id, true) ∈ Auto.commands := by rw [h2]; decide
      refine ⟨fun r s' h => ?_, fun _ h => (by rw [h]), fun h => absurd yes (h _)⟩
      cases doc with
      | none =>
        injection h with h
        injection h with e1 e2
        refine ⟨⟨s.names, e2.symm⟩, ⟨?_, fun h => absurd rfl h.2⟩⟩
        rintro ⟨m, data, e⟩
        rw [← e1] at e; cases e
      | some d =>
        injection h with h
        injection h with e1 e2
        exact ⟨⟨_, e2.symm⟩, fun _ => ⟨⟨_, yes⟩, by simp⟩, fun _ => ⟨_, _, e1.symm⟩⟩
    · rw [if_neg h2]
      have no : ∀ b, (id, b) ∉ Auto.commands := by
        intro b h
        unfold Auto.commands at h
        simp only [List.mem_cons, Prod.mk.injEq, List.not_mem_nil, or_false] at h
        rcases h with h | h
        · exact h1 h.1
        · exact h2 h.1
      refine ⟨fun r s' h => ?_, fun h => absurd h.choose_spec (no _), fun _ => rfl⟩
      injection h with h
      injection h with e1 e2
      refine ⟨⟨s.names, e2.symm⟩, ⟨?_, fun h => absurd h.1.choose_spec (no _)⟩⟩
      rintro ⟨m, data, e⟩
      rw [← e1] at e; cases e

/-- **C156 (tokens).** Both commands that count the tokens of a document report the number of tokens the extension gives for it; and
after the tokens kept were cleared this is the number of tokens of the present text under the present settings. -/
theorem C156_tokens (alnum : Char → Bool) (s : Syntax) (d : Document) (other : Option Document) :
    (s.execute alnum "syntax.highlight".toList (some d)).1 =
      .done ("Document highlighted with ".toList ++ number (s.tokens alnum d).1.length ++ " tokens".toList) [] ∧
    (s.execute alnum "syntax.get_tokens".toList (some d)).1 =
      .done ("Found ".toList ++ number (s.tokens alnum d).1.length ++ " tokens".toList)
        [("token_count".toList, number (s.tokens alnum d).1.length)] ∧
    ((s.execute alnum "syntax.clear_cache".toList other).2.tokens alnum d).1 = Highlight.fresh alnum ⟨s.tags, s.max⟩ d.text ∧
    (s.shutdown.tokens alnum d).1 = Highlight.fresh alnum ⟨s.tags, s.max⟩ d.text := by
  simp only [← showNat_number]
  refine ⟨rfl, ?_, ?_, rfl⟩
  · unfold Syntax.execute
    rw [if_neg (by decide), if_neg (by decide), if_pos rfl]
  · unfold Syntax.execute
    rw [if_neg (by decide), if_pos rfl]
    rfl

example : ((Syntax.new).execute Char.isAlphanum "syntax.get_tokens".toList (some ⟨['d'], "[Events]\n; x".toList⟩)).1 =
    .done "Found 2 tokens".toList [("token_count".toList, "2".toList)] := by decide +kernel

/-- The extension after a document was highlighted. -/
def used : Syntax := ((Syntax.new).execute Char.isAlphanum "syntax.highlight".toList (some ⟨['d'], "[Events]".toList⟩)).2

/-- **C156 violated (stale count).** After an edit of the document the count is that of the old text. -/
theorem C156_stale_violated :
    (used.execute Char.isAlphanum "syntax.get_tokens".toList (some ⟨['d'], "[Events]\n; x".toList⟩)).1 =
      .done "Found 1 tokens".toList [("token_count".toList, "1".toList)] ∧
    ((Syntax.new).execute Char.isAlphanum "syntax.get_tokens".toList (some ⟨['d'], "[Events]\n; x".toList⟩)).1 =
      .done "Found 2 tokens".toList [("token_count".toList, "2".toList)] := by decide +kernel

/-- The extension after a line with a tag was highlighted. -/
def tagged : Syntax := ((Syntax.new).execute Char.isAlphanum "syntax.highlight".toList
  (some ⟨['d'], "[Events]\nDialogue: 0,0,1,D,,0,0,0,,{\\b1}".toList⟩)).2

/-- Tags are not to be highlighted. -/
def noTags (k : Str) : Option Str := if k = "syntax.highlight_tags".toList then some "false".toList else none

/-- **C156 violated (settings too late).** A changed setting has no effect on a document highlighted before. -/
theorem C156_late_violated :
    (tagged.initialize noTags).tags = false ∧
    ((tagged.initialize noTags).tokens Char.isAlphanum ⟨['d'], "[Events]\nDialogue: 0,0,1,D,,0,0,0,,{\\b1}".toList⟩).1.length ≠
      (((Syntax.new).initialize noTags).tokens Char.isAlphanum ⟨['d'], "[Events]\nDialogue: 0,0,1,D,,0,0,0,,{\\b1}".toList⟩).1.length := by
  decide +kernel

/-- Where a completion is asked for. -/
def Asked (args : List (Str × Str)) (text : Str) (n : Nat) : Prop :=
  (∃ v, args.lookup "position".toList = some v ∧ Whole (2 ^ 64) v n) ∨
  ((∀ v m, args.lookup "position".toList = some v → ¬ Whole (2 ^ 64) v m) ∧ n = bytes text)

theorem asked_place (args : List (Str × Str)) (text : Str) : Asked args text (place args text) := by
  unfold Asked place
  cases args.lookup "position".toList with
  | none => exact .inr ⟨fun v n h => (by cases h), rfl⟩
  | some v =>
    dsimp only
    cases h : parseUnsigned 10 (2 ^ 64) v with
    | some n => exact .inl ⟨v, rfl, Verif.Resolved.whole_iff.1 h⟩
    | none =>
      refine .inr ⟨fun v' n e hw => ?_, rfl⟩
      injection e with e
      subst e
      rw [Verif.Resolved.whole_iff.2 hw] at h
      cases h

theorem shown_length (l : List Complete.Item) : (shown l).length = min 10 l.length := by
  unfold shown; simp

theorem shown_get (l : List Complete.Item) (i : Nat) (c : Complete.Item) (h : l[i]? = some c) (hi : i < 10) :
    (shown l)[i]? = some ("completion_".toList ++ number i, c.what.insert) := by
  unfold shown
  rw [List.getElem?_map, List.getElem?_zipIdx, List.getElem?_take, if_pos hi, h]
  simp [showNat_number]

/-- **C156 (completion).** The command finds the completions at the place given as a number, and at the end of the document without
one; it reports their number and the first ten of them, in their order; the names of styles are those of the document.  The program
is stopped just when the completion at that place stops it. -/
theorem C156_trigger (alnum : Char → Bool) (lower : Str → Str) (secs : Str → List Parser.Section) (s : Auto)
    (args : List (Str × Str)) (d : Document) :
    ∃ n, Asked args d.text n ∧
      (s.execute alnum lower secs "autocomplete.trigger".toList args (some d) = .panic ↔ s.completions alnum lower secs d.text n = .panic) ∧
      ∀ l, s.completions alnum lower secs d.text n = .ok l → ∃ data s',
        s.execute alnum lower secs "autocomplete.trigger".toList args (some d) =
          .ok (.done ("Found ".toList ++ number l.length ++ " completions".toList) data, s') ∧
        data.length = min 10 l.length ∧
        (∀ i c, l[i]? = some c → i < 10 → data[i]? = some ("completion_".toList ++ number i, c.what.insert)) ∧
        (∀ name, name ∈ s'.names ↔ ∃ st p, Parser.Section.styles st ∈ secs d.text ∧ p ∈ st ∧ p.1.name = name) := by
  refine ⟨place args d.text, asked_place .., ?_, fun l h => ?_⟩
  · unfold Auto.execute
    rw [if_pos rfl]
    dsimp only
    cases s.completions alnum lower secs d.text (place args d.text) with
    | ok l => exact ⟨fun h => (by cases h), fun h => (by cases h)⟩
    | err => exact ⟨fun h => (by cases h), fun h => (by cases h)⟩
    | panic => exact ⟨fun _ => rfl, fun _ => rfl⟩
  · refine ⟨shown l, { s with names := Complete.styleNames (secs d.text) }, ?_, shown_length l, shown_get l, fun name => mem_styleNames⟩
    unfold Auto.execute
    rw [if_pos rfl]
    dsimp only
    rw [h]
    dsimp only
    rw [showNat_number]

/-- **C156 (end of the document).** Without a place, or with one that is no number, the program is never stopped. -/
theorem C156_end (alnum : Char → Bool) (lower : Str → Str) (secs : Str → List Parser.Section) (s : Auto)
    (args : List (Str × Str)) (d : Document)
    (h : ∀ v m, args.lookup "position".toList = some v → ¬ Whole (2 ^ 64) v m) :
    ∃ m data s', s.execute alnum lower secs "autocomplete.trigger".toList args (some d) = .ok (.done m data, s') := by
  obtain ⟨n, h1, h2, h3⟩ := C156_trigger alnum lower secs s args d
  have hn : n = bytes d.text := by
    rcases h1 with ⟨v, e, hw⟩ | h1
    · exact absurd hw (h v n e)
    · exact h1.2
  have hp := C103_panics alnum lower ⟨s.fields, s.styles, s.tags, s.max⟩ (secs d.text) d.text n
  cases hc : Complete.completions alnum lower ⟨s.fields, s.styles, s.tags, s.max⟩ (secs d.text) d.text n with
  | ok l =>
    obtain ⟨data, s', e, _⟩ := h3 l hc
    exact ⟨_, _, _, e⟩
  | err => exact absurd hc hp.2
  | panic =>
    exfalso
    rcases hp.1.1 hc with hb | ⟨above, la, below, hcut, ho⟩
    · exact hb d.text [] (by simp) hn
    · have e := hcut.1
      have := congrArg bytes e
      rw [hn] at ho
      rw [ho] at this
      unfold bytes at this
      simp at this
      have := Char.utf8Size_pos '['
      omega

example : (Auto.new).execute Char.isAlphanum id (fun _ => []) "autocomplete.trigger".toList [("position".toList, "x".toList)]
    (some ⟨['d'], "[Events]\nDialogue: 0,0,1,D,,0,0,0,,{\\frx".toList⟩) = .ok (.done "Found 1 completions".toList
      [("completion_0".toList, "\\frx0".toList)], Auto.new) := by
  rfl

/-- **C156 violated (stops).** A place beyond the end of the document stops the program, although the command announces failures. -/
theorem C156_position_violated : (Auto.new).execute Char.isAlphanum id (fun _ => []) "autocomplete.trigger".toList
    [("position".toList, "4".toList)] (some ⟨['d'], "abc".toList⟩) = .panic := by
  rfl

/-- **C156 violated (ten).** Of more than ten completions found, the rest is reported in number only. -/
theorem C156_ten_violated : ∃ l data, (Auto.new).completions Char.isAlphanum id (fun _ => []) "{\\".toList 2 = .ok l ∧
    (∃ m s', (Auto.new).execute Char.isAlphanum id (fun _ => []) "autocomplete.trigger".toList [] (some ⟨['d'], "{\\".toList⟩) =
      .ok (.done m data, s')) ∧ l.length = 20 ∧ data.length = 10 := by
  refine ⟨_, _, rfl, ⟨_, _, rfl⟩, ?_, ?_⟩ <;> decide +kernel

end Verif.Props.BuiltinExt
