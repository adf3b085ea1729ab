import Verif.Lemmas.Highlight
/-!
# C102 — syntax highlighting
-/
namespace Verif.Props
open Verif Verif.Highlight Verif.Spec.Highlight
open Verif.Spec.EventCmd (White)

/-- **C102.** The tokens of a document (with line feeds between its lines and no limit) are the pieces of its lines that have a
meaning, where they stand: section headers with their names; comments; names and values of fields; types, times, styles and other
fields of events; names and fields of styles; and in the text of events the braces, the names of tags, their parameters, the text
between, and a block that is not closed.
Missing: documents with carriage returns (`C102_carriage_violated`) and a limit on the tokens (`C102_limit_violated`). -/
theorem C102_tokens_partial (alnum : Char → Bool) (c : Config) (text : Str) (hc : c.maxTokens = 0) (hr : '\r' ∉ text) :
    ∃ l, Doc alnum c.tags none text l ∧ fresh alnum c text = place 0 l := by
  obtain ⟨l, h1, _, h2⟩ := doc alnum c hc text.length text rfl hr none
  exact ⟨l, h1, h2 0⟩

/-- ASCII letters and digits, for the examples. -/
def asciiAlnum (c : Char) : Bool := c.isAlphanum

example : fresh asciiAlnum ⟨true, 0⟩ "[Events]\nDialogue: 0,0,1,D,,0,0,0,,a{\\b1\\pos(1)}é{".toList =
    [⟨0, 8, .header, some "Events".toList⟩, ⟨9, 18, .eventType, some "Dialogue".toList⟩,
     ⟨18, 20, .fieldValue, none⟩, ⟨21, 22, .timeCode, none⟩, ⟨23, 24, .timeCode, none⟩, ⟨25, 26, .styleName, some ['D']⟩,
     ⟨27, 27, .fieldValue, none⟩, ⟨28, 29, .fieldValue, none⟩, ⟨30, 31, .fieldValue, none⟩, ⟨32, 33, .fieldValue, none⟩,
     ⟨34, 34, .fieldValue, none⟩, ⟨35, 35, .fieldValue, none⟩, ⟨35, 36, .text, none⟩, ⟨36, 37, .tag, none⟩,
     ⟨38, 40, .tag, some ['b', '1']⟩, ⟨41, 44, .tag, some "pos".toList⟩, ⟨44, 47, .param, none⟩, ⟨47, 48, .tag, none⟩,
     ⟨48, 50, .text, none⟩, ⟨50, 51, .error, some "Unclosed override tag".toList⟩] := by decide +kernel

theorem place_slice (l : List Piece) (pre : Str) : ∀ t ∈ place (bytes pre) l, ∃ p ∈ l, ∃ a b, textOf l = a ++ p.text ++ b ∧
    t.start = bytes (pre ++ a) ∧ t.stop = bytes (pre ++ a ++ p.text) ∧ p.what = some (t.kind, t.info) := by
  induction l generalizing pre with
  | nil => intro t ht; cases ht
  | cons p l ih =>
    intro t ht
    rw [place] at ht
    rcases List.mem_append.1 ht with h | h
    · cases hw : p.what with
      | none => rw [hw] at h; cases h
      | some ki =>
        obtain ⟨k, i⟩ := ki
        rw [hw] at h
        have := List.mem_singleton.1 h
        subst this
        exact ⟨p, List.mem_cons_self, [], textOf l, by simp, by simp, by simp [bytes_eq], hw⟩
    · have : bytes pre + bytes p.text = bytes (pre ++ p.text) := by simp [bytes_eq]
      rw [this] at h
      obtain ⟨q, hq, a, b, h1, h2, h3, h4⟩ := ih (pre ++ p.text) t h
      exact ⟨q, List.mem_cons_of_mem _ hq, p.text ++ a, b, by simp [h1], by simpa using h2, by simpa using h3, h4⟩

theorem place_ge (l : List Piece) (n : Nat) : ∀ t ∈ place n l, n ≤ t.start := by
  induction l generalizing n with
  | nil => intro t ht; cases ht
  | cons p l ih =>
    intro t ht
    rw [place] at ht
    rcases List.mem_append.1 ht with h | h
    · cases hw : p.what with
      | none => rw [hw] at h; cases h
      | some ki =>
        rw [hw] at h
        have := List.mem_singleton.1 h
        subst this
        exact Nat.le_refl _
    · have := ih _ t h
      omega

theorem place_sorted (l : List Piece) (n : Nat) : (place n l).Pairwise fun a b => a.stop ≤ b.start := by
  induction l generalizing n with
  | nil => exact .nil
  | cons p l ih =>
    rw [place]
    cases p.what with
    | none => exact ih _
    | some ki =>
      refine .cons (fun t ht => ?_) (ih _)
      exact place_ge l _ t ht

/-- **C102.** Each token covers a stretch of the document: its range begins and ends between characters, and the tokens follow each
other without overlap.  For documents without carriage returns and without blanks after `Style:`.
Missing: the documents left out, whose ranges drift (`C102_carriage_violated`, `C102_style_violated`). -/
theorem C102_ranges_partial (alnum : Char → Bool) (c : Config) (text : Str) (hr : '\r' ∉ text)
    (hs : ∀ a b w, White w → text ≠ a ++ "Style:".toList ++ w :: b) :
    (∀ t ∈ fresh alnum c text, ∃ a m b, text = a ++ m ++ b ∧ t.start = bytes a ∧ t.stop = bytes (a ++ m)) ∧
    (fresh alnum c text).Pairwise fun a b => a.stop ≤ b.start := by
  obtain ⟨rest, h1, _⟩ := docLoop_limit alnum c [] none 0 (lines text)
  obtain ⟨l, _, h2, h3⟩ := doc alnum { c with maxTokens := 0 } rfl text.length text rfl hr none
  have hp := h3 0
  rw [h1] at hp
  have hm : ∀ t ∈ fresh alnum c text, t ∈ place 0 l := by
    intro t ht
    rw [← hp]
    exact List.mem_append_left _ ht
  refine ⟨fun t ht => ?_, ?_⟩
  · obtain ⟨p, _, a, b, e, e1, e2, _⟩ := place_slice l [] t (hm t ht)
    rw [h2 hs] at e
    exact ⟨a, p.text, b, e, e1, e2⟩
  · have := place_sorted l 0
    rw [← hp] at this
    exact (List.pairwise_append.1 this).1

example : ∀ a b w, White w → "[Script Info]\nTitle: é\n".toList ≠ a ++ "Style:".toList ++ w :: b := by
  intro a b w _ e
  have : containsStr "Style:".toList "[Script Info]\nTitle: é\n".toList = true := containsStr_iff.2 ⟨a, w :: b, e⟩
  revert this
  decide

/-- **C102.** With a limit the tokens are the first ones, whole lines of them: all, or at least as many as the limit. -/
theorem C102_limit (alnum : Char → Bool) (c : Config) (text : Str) :
    ∃ rest, fresh alnum ⟨c.tags, 0⟩ text = fresh alnum c text ++ rest ∧ (rest = [] ∨ c.maxTokens ≤ (fresh alnum c text).length) :=
  docLoop_limit alnum c [] none 0 (lines text)

example : fresh asciiAlnum ⟨true, 1⟩ "[A]\nb\n[C]".toList = [⟨0, 3, .header, some ['A']⟩] := by decide +kernel

/-- **C102.** A document that is not in the cache, because it was never asked for or the cache was cleared or the document
invalidated, gets the tokens of its text and keeps them until then, and others keep theirs. -/
theorem C102_cache (alnum : Char → Bool) (c : Config) (cache : Cache) (id text : Str) :
    (tokenizeDocument alnum c (clearCache cache) id text).1 = fresh alnum c text ∧
    (tokenizeDocument alnum c (invalidate cache id) id text).1 = fresh alnum c text ∧
    (∀ id' text', id' ≠ id → (tokenizeDocument alnum c (invalidate cache id) id' text').1 = (tokenizeDocument alnum c cache id' text').1) ∧
    (∀ id' text' text'', id' ≠ id → (tokenizeDocument alnum c (tokenizeDocument alnum c cache id text'').2 id' text').1 =
      (tokenizeDocument alnum c cache id' text').1) ∧
    ∀ text', (tokenizeDocument alnum c (tokenizeDocument alnum c (invalidate cache id) id text).2 id text').1 = fresh alnum c text := by
  refine ⟨rfl, ?_, fun id' text' h => ?_, fun id' text' text'' h => ?_, fun text' => ?_⟩
  · unfold tokenizeDocument invalidate
    rw [Map.get_erase_self]
  · unfold tokenizeDocument invalidate
    rw [Map.get_erase_ne h]
    cases Map.get cache id' <;> rfl
  · unfold tokenizeDocument
    cases hg : Map.get cache id with
    | some t => rfl
    | none =>
      dsimp only
      rw [Map.get_insert_ne h]
      cases Map.get cache id' <;> rfl
  · unfold tokenizeDocument invalidate
    rw [Map.get_erase_self]
    dsimp only
    rw [Map.get_insert_self]

/-- **C102 is violated**: after an edit the old tokens are returned until someone clears the cache. -/
theorem C102_stale_violated :
    ¬ ∀ (alnum : Char → Bool) (c : Config) (cache : Cache) (id old new : Str),
        (tokenizeDocument alnum c (tokenizeDocument alnum c cache id old).2 id new).1 = fresh alnum c new := by
  intro h
  have := h asciiAlnum ⟨true, 0⟩ [] ['d'] "[A]".toList "[AB]".toList
  revert this
  decide +kernel

/-- **C102 is violated**: with carriage returns the ranges drift by a byte for each line. -/
theorem C102_carriage_violated :
    ¬ ∀ (c : Config) (text : Str), ∀ t ∈ fresh asciiAlnum c text, t.kind = .header →
        ∃ a b name, text = a ++ '[' :: name ++ ']' :: b ∧ t.start = bytes a := by
  intro h
  have e : fresh asciiAlnum ⟨true, 0⟩ "\r\n\r\n[A]".toList = [⟨2, 5, .header, some ['A']⟩] := by decide +kernel
  obtain ⟨a, b, name, e1, e2⟩ := h ⟨true, 0⟩ "\r\n\r\n[A]".toList ⟨2, 5, .header, some ['A']⟩ (by rw [e]; exact List.mem_cons_self) rfl
  have hx : "\r\n\r\n[A]".toList = ['\r', '\n', '\r', '\n', '[', 'A', ']'] := rfl
  rw [hx] at e1
  dsimp only at e2
  match a, e1, e2 with
  | [], e1, _ => cases e1
  | [x], e1, _ => cases e1
  | [x, y], e1, _ => cases e1
  | [x, y, z], e1, _ => cases e1
  | x :: y :: z :: w :: a, e1, e2 =>
    have hy : bytes (x :: y :: z :: w :: a) = x.utf8Size + (y.utf8Size + (z.utf8Size + (w.utf8Size + byteLen a))) := by
      rw [bytes_eq]; simp
    have := utf8Size_pos x
    have := utf8Size_pos y
    have := utf8Size_pos z
    have := utf8Size_pos w
    omega

/-- **C102 is violated**: the blanks after `Style:` are left out of the count, so the ranges of the style's name and fields are too
far left. -/
theorem C102_style_violated :
    ¬ ∀ (c : Config) (text : Str), ∀ t ∈ fresh asciiAlnum c text, t.kind = .styleName →
        ∃ a b, text = a ++ (t.info.getD []) ++ b ∧ t.start ≤ bytes a ∧ bytes a + bytes (t.info.getD []) ≤ t.stop := by
  intro h
  have e2 : fresh asciiAlnum ⟨true, 0⟩ "[V4+ Styles]\n\nStyle: AB".toList = 
      [⟨0, 12, .header, some "V4+ Styles".toList⟩, ⟨14, 20, .fieldName, some "Style".toList⟩,
       ⟨20, 22, .styleName, some ['A', 'B']⟩] := by decide +kernel
  obtain ⟨a, b, e1, h1, h2⟩ := h ⟨true, 0⟩ "[V4+ Styles]\n\nStyle: AB".toList ⟨20, 22, .styleName, some ['A', 'B']⟩
    (by rw [e2]; simp) rfl
  dsimp only [Option.getD_some] at e1 h2
  have hb := congrArg byteLen e1
  have hl : byteLen "[V4+ Styles]\n\nStyle: AB".toList = 23 := by decide
  rw [hl, byteLen_append, byteLen_append] at hb
  have hab : byteLen ['A', 'B'] = 2 := rfl
  have hab' : bytes ['A', 'B'] = 2 := rfl
  have hba : bytes a = byteLen a := rfl
  have h20 : byteLen a = 20 := by
    simp only at h1
    omega
  have hd : dropBytes "[V4+ Styles]\n\nStyle: AB".toList 20 = some (['A', 'B'] ++ b) :=
    dropBytes_iff.2 ⟨a, by rw [e1, List.append_assoc], h20⟩
  have hd2 : dropBytes "[V4+ Styles]\n\nStyle: AB".toList 20 = some [' ', 'A', 'B'] := by decide
  rw [hd2] at hd
  cases hd

/-- **C102 is violated**: some tokens cover nothing: every event has an empty field before its text. -/
theorem C102_empty_violated :
    ¬ ∀ (c : Config) (text : Str), ∀ t ∈ fresh asciiAlnum c text, t.start < t.stop := by
  intro h
  have := h ⟨true, 0⟩ "[Events]\nDialogue:0,1,2,D,n,0,0,0,e,t".toList
  revert this
  decide +kernel

/-- **C102 is violated**: the limit is exceeded. -/
theorem C102_limit_violated :
    ¬ ∀ (c : Config) (text : Str), 0 < c.maxTokens → (fresh asciiAlnum c text).length ≤ c.maxTokens := by
  intro h
  have := h ⟨true, 3⟩ "[Events]\nDialogue:0,1,2,D,n,0,0,0,e,t".toList (by decide)
  revert this
  decide +kernel

end Verif.Props
