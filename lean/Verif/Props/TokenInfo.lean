import Verif.Model.TokenInfo
import Verif.Props.Tokenizer
/-!
# C170 — what tokens say of themselves
-/
namespace Verif.Props.TokenInfo
open Verif Verif.Tokenizer Verif.TokenInfo Verif.Spec.Tokenizer
open Verif.Spec.Script (size)
open Verif.Spec.EventCmd (White)

/-- Text within a line. -/
def OneLine (s : Str) : Prop := ∀ c ∈ s, c ≠ '\n' ∧ c ≠ '\r'

theorem tail_line : ∀ (a x : Str) (n : Nat), OneLine x → tailLen n (a ++ x) = tailLen n a + x.length
  | [], [], _, _ => rfl
  | [], c :: x, n, h => by
    have hc := h c (List.mem_cons_self ..)
    show tailLen n (c :: x) = n + (x.length + 1)
    rw [tailLen, if_neg (fun e => e.elim hc.2 hc.1)]
    have := tail_line [] x (n + 1) (fun d hd => h d (List.mem_cons_of_mem _ hd))
    rw [List.nil_append] at this
    rw [this]
    show n + 1 + x.length = _
    omega
  | c :: a, x, n, h => by
    show tailLen n (c :: (a ++ x)) = tailLen n (c :: a) + x.length
    rw [tailLen, tailLen]
    split
    · exact tail_line a x 0 h
    · exact tail_line a x (n + 1) h

theorem breaks_line : ∀ (a x : Str) (cr : Bool), OneLine x → breaks cr (a ++ x) = breaks cr a
  | [], [], _, _ => rfl
  | [], c :: x, cr, h => by
    have hc := h c (List.mem_cons_self ..)
    show breaks cr (c :: x) = 0
    rw [breaks, if_neg (fun e => e.elim hc.2 (fun e => hc.1 e.1))]
    have := breaks_line [] x (decide (c = '\r')) (fun d hd => h d (List.mem_cons_of_mem _ hd))
    rw [List.nil_append] at this
    rw [this]
    rfl
  | c :: a, x, cr, h => by
    show breaks cr (c :: (a ++ x)) = breaks cr (c :: a)
    rw [breaks, breaks, breaks_line a x _ h]

theorem prefix_eq : ∀ {a b c d : Str}, a ++ b = c ++ d → size a = size c → a = c
  | [], _, [], _, _, _ => rfl
  | [], _, y :: c, _, _, h => by
    have := Char.utf8Size_pos y
    simp [size] at h
    omega
  | x :: a, _, [], _, _, h => by
    have := Char.utf8Size_pos x
    simp [size] at h
    omega
  | x :: a, b, y :: c, d, h, hs => by
    injection h with h1 h2
    subst h1
    have := prefix_eq h2 (by simp [size] at hs ⊢; omega)
    rw [this]

theorem laid_next {v : Bool} {n : Nat} {s : Str} {ts : List Tok} (h : Laid v n s ts) : ∀ {k : Nat} {t u : Tok}, ts[k]? = some t → ts[k + 1]? = some u →
    ∃ p g r, s = p ++ t.span ++ (g ++ u.span ++ r) ∧ Gap g ∧ t.start = n + size p ∧ u.start = n + size (p ++ t.span ++ g) := by
  induction h with
  | nil _ _ => intro k t u h1; simp at h1
  | @cons v n g t0 s ts hg hv hne hs ht ih =>
    intro k t u h1 h2
    cases k with
    | zero =>
      simp only [List.getElem?_cons_zero, Option.some.injEq] at h1
      subst h1
      cases ht with
      | nil _ _ => simp at h2
      | @cons _ _ g' t1 s' ts' hg' _ _ hs' _ =>
        simp only [Nat.zero_add, List.getElem?_cons_succ, List.getElem?_cons_zero, Option.some.injEq] at h2
        subst h2
        refine ⟨g, g', s', rfl, hg', hs, ?_⟩
        rw [hs', Incremental.size_append, Incremental.size_append]
        omega
    | succ k =>
      obtain ⟨p, g', r, e1, e2, e0, e3⟩ := ih (k := k) (by simpa using h1) (by simpa using h2)
      refine ⟨g ++ t0.span ++ p, g', r, by rw [e1]; simp, e2, by rw [e0]; simp only [Incremental.size_append]; omega, ?_⟩
      rw [e3]
      simp only [Incremental.size_append]
      omega

theorem consecutive {simd : Bool} {src : Str} {k : Nat} {t u : Tok} (h1 : result simd src k = .tok t) (h2 : result simd src (k + 1) = .tok u) :
    ∃ p g r, body src = p ++ t.span ++ (g ++ u.span ++ r) ∧ Gap g ∧ t.start = skipped src + size p ∧ u.start = skipped src + size (p ++ t.span ++ g) := by
  obtain ⟨ts, hk, h⟩ := C08_cover_partial simd src
  have hlen : k + 1 < ts.length := by
    rcases h with ⟨h, _⟩ | ⟨h, h', _⟩
    · rcases Nat.lt_or_ge (k + 1) ts.length with hl | hl
      · exact hl
      · rw [h _ hl] at h2; cases h2
    · rcases Nat.lt_trichotomy (k + 1) ts.length with hl | hl | hl
      · exact hl
      · rw [hl, h] at h2; cases h2
      · rw [h' _ hl] at h2; cases h2
  have g1 : ts[k]? = some t := by
    have := hk k _ (List.getElem?_eq_getElem (by omega))
    rw [h1] at this
    injection this with this
    rw [this, List.getElem?_eq_getElem (by omega)]
  have g2 : ts[k + 1]? = some u := by
    have := hk (k + 1) _ (List.getElem?_eq_getElem hlen)
    rw [h2] at this
    injection this with this
    rw [this, List.getElem?_eq_getElem hlen]
  rcases h with ⟨_, h⟩ | ⟨_, _, s, hs, h⟩
  · exact laid_next h g1 g2
  · obtain ⟨p, g, r, e1, e2, e3⟩ := laid_next h g1 g2
    exact ⟨p, g, r ++ ['\r'], by rw [hs, e1]; simp, e2, e3⟩

/-- **C170, partial.** Without the feature `simd`: the end column of a token within a line is the column of what follows it.

Missing: with the feature (see `C170_simd_violated`), tokens that hold a line break (see `C170_break_violated`). -/
theorem C170_end_partial {src : Str} {k : Nat} {t : Tok} (h : result false src k = .tok t) (hl : OneLine t.span) :
    ∃ a s, body src = a ++ t.span ++ s ∧ t.start = skipped src + size a ∧ endColumn t = 1 + tailLen 0 (a ++ t.span) := by
  obtain ⟨a, s, e1, e2, _, _, e3, _⟩ := C92_token_partial h
  refine ⟨a, s, e1, e2, ?_⟩
  rw [tail_line a t.span 0 hl, endColumn, len, (e3 rfl).2]
  omega

/-- **C170, partial.** And the next token is in the same line, as far behind that column as white space lies between the two.

Missing: as above. -/
theorem C170_next_partial {src : Str} {k : Nat} {t u : Tok} (h1 : result false src k = .tok t) (h2 : result false src (k + 1) = .tok u)
    (hl : OneLine t.span) : u.line = t.line ∧
    ∃ p g r, body src = p ++ t.span ++ (g ++ u.span ++ r) ∧ Gap g ∧ u.col = endColumn t + g.length := by
  obtain ⟨p, g, r, e1, e2, e0, e3⟩ := consecutive h1 h2
  obtain ⟨a, s, a1, a2, _, _, a3, _⟩ := C92_token_partial h1
  obtain ⟨b, s', b1, b2, _, _, b3, _⟩ := C92_token_partial h2
  obtain ⟨ta, tc⟩ := a3 rfl
  obtain ⟨ua, uc⟩ := b3 rfl
  have hb : b = p ++ t.span ++ g := by
    refine prefix_eq (b := u.span ++ s') (d := u.span ++ r) ?_ (by omega)
    rw [← List.append_assoc, ← b1, e1]
    simp
  have hg : OneLine g := fun c hc => (e2 c hc).2
  have hx : OneLine (t.span ++ g) := fun c hc => (List.mem_append.1 hc).elim (hl c) (hg c)
  have hp : a = p := by
    refine prefix_eq (b := t.span ++ s) (d := t.span ++ (g ++ u.span ++ r)) ?_ ?_
    · rw [← List.append_assoc, ← a1, e1]
      simp
    · omega
  subst hp
  subst hb
  rw [List.append_assoc] at ua uc
  rw [breaks_line _ _ _ hx] at ua
  rw [tail_line _ _ _ hx, List.length_append] at uc
  refine ⟨by rw [ua, ta], a, g, r, e1, e2, ?_⟩
  rw [uc, endColumn, len, tc]
  omega

example : result false "K:  v ,w".toList 2 = .tok ⟨.text, "  v ".toList, 2, 1, 3⟩ ∧ endColumn ⟨.text, "  v ".toList, 2, 1, 3⟩ = 7 ∧
    result false "K:  v ,w".toList 3 = .tok ⟨.comma, [','], 6, 1, 7⟩ := by decide

/-- **C170, disagreement.** With the feature `simd` columns are not counted over text: the end column of the text is not where the next token
is said to begin. -/
theorem C170_simd_violated : result true "Title:".toList 0 = .tok ⟨.text, "Title".toList, 0, 1, 1⟩ ∧
    result true "Title:".toList 1 = .tok ⟨.colon, [':'], 5, 1, 1⟩ ∧ endColumn ⟨.text, "Title".toList, 0, 1, 1⟩ = 6 := by decide

/-- **C170, disagreement.** The end column of a line break, or of a header that holds one, is not that of what follows. -/
theorem C170_break_violated :
    (result false "\n,".toList 0 = .tok ⟨.newline, ['\n'], 0, 1, 1⟩ ∧ endColumn ⟨.newline, ['\n'], 0, 1, 1⟩ = 2 ∧
      result false "\n,".toList 1 = .tok ⟨.comma, [','], 1, 2, 1⟩) ∧
    (result false "[A\n]".toList 0 = .tok ⟨.sectionHeader, "[A\n".toList, 0, 1, 1⟩ ∧ endColumn ⟨.sectionHeader, "[A\n".toList, 0, 1, 1⟩ = 4 ∧
      result false "[A\n]".toList 1 = .tok ⟨.sectionClose, [']'], 3, 2, 1⟩) := by decide

/-- **C170.** A token that calls itself a delimiter is one of the four characters; one that calls itself white space holds nothing else; none
is empty; one of a structural type is a line break, opens a section header or closes it. -/
theorem C170_asked {simd : Bool} {src : Str} {k : Nat} {t : Tok} (h : result simd src k = .tok t) :
    (delimiterKind (kindOf t.ty) = true → t.span = [':'] ∨ t.span = [','] ∨ t.span = [']'] ∨ t.span = ['}']) ∧
    (isWhitespace t = true → ∀ c ∈ t.span, White c) ∧ isEmpty t = false ∧
    ((kindOf t.ty).isStructural = true → t.span = ['\n'] ∨ t.span = ['\r', '\n'] ∨ t.span = ['\r'] ∨ t.span.head? = some '[' ∨ t.span = [']']) := by
  obtain ⟨a, s, _, _, hs, hne, _⟩ := C92_token_partial h
  unfold Shape at hs
  refine ⟨?_, ?_, ?_, ?_⟩
  · intro hd
    cases ht : t.ty <;> rw [ht] at hs hd <;> first | cases hd | skip
    · exact .inl hs
    · exact .inr (.inl hs)
    · exact .inr (.inr (.inl hs))
    · exact .inr (.inr (.inr hs))
  · intro hd
    unfold isWhitespace at hd
    cases ht : t.ty <;> rw [ht] at hs hd <;> first | cases hd | skip
    exact fun c hc => (hs c hc).1
  · unfold isEmpty
    cases hx : t.span with
    | nil => exact absurd hx hne
    | cons _ _ => rfl
  · intro hd
    cases ht : t.ty <;> rw [ht] at hs hd <;> first | cases hd | skip
    · rcases hs with h | h | h
      · exact .inl h
      · exact .inr (.inl h)
      · exact .inr (.inr (.inl h.1))
    · exact .inr (.inr (.inr (.inr hs)))
    · obtain ⟨x, hx, _⟩ := hs
      exact .inr (.inr (.inr (.inl (by rw [hx]; rfl))))

example : result false "K:  v ,w".toList 1 = .tok ⟨.colon, [':'], 1, 1, 2⟩ ∧ delimiterKind (kindOf .colon) = true := by decide

theorem mem_kinds (k : Kind) : k ∈ kinds := by cases k <;> decide

/-- **C170.** The names of the types tell them apart; a type is delimiter for itself when its tokens are; and no type is two of delimiter,
content and skippable. -/
theorem C170_kinds : (∀ k l : Kind, k.name = l.name → k = l) ∧ (∀ k : Kind, delimiterKind k = k.isDelimiter) ∧
    (∀ k : Kind, ¬ (k.isDelimiter = true ∧ k.isContent = true) ∧ ¬ (k.isDelimiter = true ∧ k.isSkippable = true) ∧
      ¬ (k.isContent = true ∧ k.isSkippable = true) ∧ ¬ (k.isContent = true ∧ k.isStructural = true)) := by
  refine ⟨?_, fun k => by cases k <;> rfl, fun k => by cases k <;> decide⟩
  have h : ∀ k ∈ kinds, ∀ l ∈ kinds, k.name = l.name → k = l := by decide +kernel
  exact fun k l => h k (mem_kinds k) l (mem_kinds l)

/-- **C170, partial.** A returned token and its type answer the same when asked whether they are content.

Missing: override blocks (see `C170_content_violated`). -/
theorem C170_content_partial {simd : Bool} {src : Str} {k : Nat} {t : Tok} (h : result simd src k = .tok t) (hb : t.ty ≠ .overrideBlock) :
    contentKind (kindOf t.ty) = (kindOf t.ty).isContent := by
  obtain ⟨a, s, _, _, hs, _⟩ := C92_token_partial h
  unfold Shape at hs
  cases ht : t.ty <;> rw [ht] at hs hb <;> first | rfl | exact hs.elim | exact absurd rfl hb

/-- **C170, disagreement.** A token with an override block calls itself content; its type says it is none.  For times it would be the other
way round. -/
theorem C170_content_violated : result false "{b}".toList 0 = .tok ⟨.overrideBlock, "{b".toList, 0, 1, 1⟩ ∧
    contentKind .overrideBlock = true ∧ Kind.overrideBlock.isContent = false ∧ contentKind .timeValue = false ∧ Kind.timeValue.isContent = true := by
  decide

end Verif.Props.TokenInfo
