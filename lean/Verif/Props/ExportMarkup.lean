import Verif.Spec.ExportMarkup
import Verif.Props.Markup
/-!
# C99 — what exporting makes of override blocks
-/
namespace Verif.Props.ExportMarkup
open Verif Verif.Formats Verif.FormatDoc
open Verif.SrtDoc (clear clear_ch replaceAll_clear mismatch mismatch_strip Ev)
open Verif.Spec.FormatDoc (Tok Sw ass html Time)
open Verif.Spec.ExportMarkup
open Verif.Props.Markup

/-! ## Words that do not occur -/

theorem mismatch_of {p v : Str} {x : Char} (t : Str) (hx : x ∉ p) (hp : ¬ p <+: v) : mismatch p (v ++ x :: t) = true := by
  induction p generalizing v with
  | nil => exact absurd List.nil_prefix hp
  | cons a p ih =>
    cases v with
    | nil =>
      have : a ≠ x := fun e => hx (e ▸ List.mem_cons_self)
      simp [mismatch, this]
    | cons b v =>
      rw [List.cons_append, mismatch]
      by_cases hab : a = b
      · subst hab
        rw [ih (fun h => hx (List.mem_cons_of_mem _ h)) (fun h => hp (List.cons_prefix_cons.2 ⟨rfl, h⟩)), Bool.or_true]
      · simp [hab]

theorem lacks_tail {p : Str} {c : Char} {s : Str} (h : Lacks p (c :: s)) : Lacks p s := by
  intro a b e
  exact h (c :: a) b (by rw [e]; rfl)

theorem lacks_prefix {p s : Str} (h : Lacks p s) : ¬ p <+: s := by
  rintro ⟨t, e⟩
  exact h [] t (by rw [← e]; rfl)

theorem clear_lacks {p : Str} {x : Char} (hx : x ∉ p) : ∀ {s : Str}, Lacks p s → p ≠ [] → clear p (s ++ [x]) = true
  | [], _, hp => by
    cases p with
    | nil => exact absurd rfl hp
    | cons a p =>
      have : a ≠ x := fun e => hx (e ▸ List.mem_cons_self)
      simp [clear, mismatch, this]
  | c :: s, h, hp => by
    rw [List.cons_append, clear, clear_lacks hx (lacks_tail h) hp, Bool.and_true]
    exact mismatch_of (v := c :: s) [] hx (lacks_prefix h)

theorem clear_block {p : Char} {ps b : Str} (hp : p ≠ '{') (h : Lacks (p :: ps) b) (hx : '}' ∉ p :: ps) :
    clear (p :: ps) ('{' :: b ++ ['}']) = true := by
  rw [List.cons_append, clear, clear_lacks hx h (by simp), Bool.and_true]
  simp [mismatch, hp]

theorem mismatch_ne : ∀ {q b : Str}, '}' ∉ q → '}' ∉ b → q ≠ b → mismatch (q ++ ['}']) (b ++ ['}']) = true
  | [], [], _, _, h => absurd rfl h
  | [], b :: bs, _, hb, _ => by
    have : '}' ≠ b := fun e => hb (e ▸ List.mem_cons_self)
    simp [mismatch, this]
  | q :: qs, [], hq, _, _ => by
    have : q ≠ '}' := fun e => hq (e ▸ List.mem_cons_self)
    simp [mismatch, this]
  | q :: qs, b :: bs, hq, hb, h => by
    rw [List.cons_append, List.cons_append, mismatch]
    by_cases e : q = b
    · subst e
      rw [mismatch_ne (fun h => hq (List.mem_cons_of_mem _ h)) (fun h => hb (List.mem_cons_of_mem _ h)) (fun e => h (by rw [e])), Bool.or_true]
    · simp [e]

theorem clear_other {q b : Str} (hq : '}' ∉ q) (hb : '}' ∉ b) (hb' : '{' ∉ b) (h : q ≠ b) :
    clear ('{' :: q ++ ['}']) ('{' :: b ++ ['}']) = true := by
  rw [List.cons_append, List.cons_append, clear]
  have h1 : mismatch ('{' :: (q ++ ['}'])) ('{' :: (b ++ ['}'])) = true := by
    rw [mismatch, mismatch_ne hq hb h, Bool.or_true]
  rw [h1, Bool.true_and]
  exact clear_none (by simp [hb'])

/-! ## Within a block -/

/-- The matcher works within blocks: what it does depends on the block only, it takes at least four characters that begin with one of `words`, and what it
puts in has a `<` and otherwise nothing but characters of the block and of `extra`. -/
def Inner (words : List Str) (m : Str → Option (Str × Str)) (extra : Str) : Prop := ∀ b : Str, '}' ∉ b →
  (∀ rest, m (b ++ '}' :: rest) = none) ∨
  ∃ out b1 b2, b = b1 ++ b2 ∧ 4 ≤ b1.length ∧ (∃ w ∈ words, w <+: b1) ∧ (∀ rest, m (b ++ '}' :: rest) = some (out, b2 ++ '}' :: rest)) ∧ '<' ∈ out ∧
    ∀ c ∈ out, c ∈ b1 ∨ c ∈ extra

/-- What a block may become: itself, or something with a `<` in it. -/
def Turns (words : List Str) (extra b b' : Str) : Prop := (b' = b ∨ '<' ∈ b' ∧ 4 ≤ b.length ∧ ∃ w ∈ words, ¬ Lacks w b) ∧ ∀ c ∈ b', c ∈ b ∨ c ∈ extra

theorem inner_body {m : Str → Option (Str × Str)} {words : List Str} {extra : Str} (hm : Inner words m extra) : ∀ (n : Nat) (b : Str), b.length ≤ n → '}' ∉ b →
    ∃ b', Turns words extra b b' ∧ ∀ k rest, (b ++ '}' :: rest).length ≤ k → ∃ k', ('}' :: rest).length ≤ k' ∧
      rewriteAux m k (b ++ '}' :: rest) = b' ++ rewriteAux m k' ('}' :: rest) := by
  intro n
  induction n with
  | zero =>
    intro b hl hb
    have : b = [] := List.length_eq_zero_iff.1 (by omega)
    subst this
    exact ⟨[], ⟨.inl rfl, by simp⟩, fun k rest hk => ⟨k, hk, rfl⟩⟩
  | succ n ih =>
    intro b hl hb
    cases b with
    | nil => exact ⟨[], ⟨.inl rfl, by simp⟩, fun k rest hk => ⟨k, hk, rfl⟩⟩
    | cons c b =>
      rcases hm (c :: b) hb with h | ⟨out, b1, b2, e, hne, ⟨w, hw, hpre⟩, h, hlt, hch⟩
      · obtain ⟨b', ⟨t1, t2⟩, hb'⟩ := ih b (by simp at hl; omega) (fun h => hb (List.mem_cons_of_mem _ h))
        refine ⟨c :: b', ⟨?_, ?_⟩, fun k rest hk => ?_⟩
        · rcases t1 with t1 | t1
          · exact .inl (by rw [t1])
          · obtain ⟨t1, t3, w, hw, t4⟩ := t1
            exact .inr ⟨List.mem_cons_of_mem _ t1, by simp; omega, w, hw, fun h => t4 (lacks_tail h)⟩
        · intro d hd
          rcases List.mem_cons.1 hd with rfl | hd
          · exact .inl List.mem_cons_self
          · exact (t2 d hd).imp (List.mem_cons_of_mem _) id
        · cases k with
          | zero => simp at hk
          | succ k =>
            obtain ⟨k', h1, h2⟩ := hb' k rest (by simp at hk ⊢; omega)
            refine ⟨k', h1, ?_⟩
            have := h rest
            rw [List.cons_append] at this ⊢
            rw [rewriteAux, this]
            dsimp only
            rw [h2]; rfl
      · have hb2 : '}' ∉ b2 := fun h => hb (by rw [e]; exact List.mem_append_right _ h)
        have hlen := congrArg List.length e
        obtain ⟨b', ⟨t1, t2⟩, hb'⟩ := ih b2 (by simp at hl hlen; omega) hb2
        refine ⟨out ++ b', ⟨.inr ⟨List.mem_append_left _ hlt, by rw [hlen, List.length_append]; omega, w, hw, fun hl => lacks_prefix hl (by rw [e]; exact hpre.trans (List.prefix_append _ _))⟩, ?_⟩, fun k rest hk => ?_⟩
        · intro d hd
          rw [e]
          rcases List.mem_append.1 hd with hd | hd
          · exact (hch d hd).imp (List.mem_append_left _) id
          · exact (t2 d hd).imp (List.mem_append_right _) id
        · cases k with
          | zero => simp at hk
          | succ k =>
            obtain ⟨k', h1, h2⟩ := hb' k rest (by simp at hk hlen ⊢; omega)
            refine ⟨k', h1, ?_⟩
            have := h rest
            rw [List.cons_append] at this ⊢
            rw [rewriteAux, this]
            dsimp only
            rw [h2, List.append_assoc]

/-- A matcher that begins with a backslash. -/
def Slash (m : Str → Option (Str × Str)) : Prop := ∀ c s, c ≠ '\\' → m (c :: s) = none

theorem slash_lit {ps : Str} {f : Str → Option (Str × Str)} : Slash (lit ('\\' :: ps) f) := by
  intro c s h
  unfold lit
  have : stripPrefix ('\\' :: ps) (c :: s) = none := by
    have := mismatch_strip (p := '\\' :: ps) (x := [c]) (by simp [mismatch, Ne.symm h]) s
    exact this
  rw [this]

theorem slash_colour (x y : Str) : Slash (assColour x y) := slash_lit (ps := "c&H".toList)

theorem slash_font (x y : Str) : Slash (assFont x y) := slash_lit (ps := "fn".toList)

theorem distR_slash {m : Str → Option (Str × Str)} (hm : Slash m) {s : Str} (h : '\\' ∉ s) : DistR m s s := by
  induction s with
  | nil => exact distR_nil m
  | cons c s ih =>
    intro k rest hk
    cases k with
    | zero => simp at hk
    | succ k =>
      obtain ⟨k', h1, h2⟩ := ih (fun hs => h (List.mem_cons_of_mem _ hs)) k rest (by simp at hk ⊢; omega)
      refine ⟨k', h1, ?_⟩
      have hc : c ≠ '\\' := fun e => h (by rw [e]; exact List.mem_cons_self)
      rw [List.cons_append, rewriteAux, hm c _ hc]
      dsimp only
      rw [h2]; rfl

theorem distR_block {m : Str → Option (Str × Str)} {words : List Str} {extra : Str} (hs : Slash m) (hm : Inner words m extra) {b : Str} (hb : '}' ∉ b) :
    ∃ b', Turns words extra b b' ∧ DistR m ('{' :: b ++ ['}']) ('{' :: b' ++ ['}']) := by
  obtain ⟨b', h1, h2⟩ := inner_body hm b.length b (Nat.le_refl _) hb
  refine ⟨b', h1, ?_⟩
  have hc := distR_slash hs (s := ['}']) (by decide)
  intro k rest hk
  cases k with
  | zero => simp at hk
  | succ k =>
    obtain ⟨k1, g1, g2⟩ := h2 k rest (by simp at hk ⊢; omega)
    obtain ⟨k2, g3, g4⟩ := hc k1 rest g1
    refine ⟨k2, g3, ?_⟩
    have e : '{' :: b ++ ['}'] ++ rest = '{' :: (b ++ '}' :: rest) := by simp
    rw [e, rewriteAux, hs '{' _ (by decide)]
    dsimp only
    rw [g2]
    rw [show '}' :: rest = ['}'] ++ rest from rfl, g4]
    simp

theorem strip_uniform {p b : Str} (hp : '}' ∉ p) : (∃ b', b = p ++ b') ∨ ∀ rest, stripPrefix p (b ++ '}' :: rest) = none := by
  by_cases h : p <+: b
  · obtain ⟨t, e⟩ := h
    exact .inl ⟨t, e.symm⟩
  · right
    intro rest
    have := mismatch_strip (mismatch_of (x := '}') [] hp h) rest
    rwa [List.append_assoc] at this

theorem inner_colour (x y : Str) (hx : '<' ∈ x) : Inner ["\\c&H".toList] (assColour x y) (x ++ y) := by
  intro b hb
  rcases strip_uniform (p := "\\c&H".toList) (b := b) (by decide) with ⟨b', e⟩ | h
  · by_cases hh : ∃ h b2, b' = h ++ '&' :: b2 ∧ h.length = 6 ∧ h.all isHexDigit = true
    · obtain ⟨h, b2, e2, h6, hhex⟩ := hh
      right
      refine ⟨x ++ h ++ y, "\\c&H".toList ++ h ++ ['&'], b2, by rw [e, e2]; simp, by simp, ⟨_, List.mem_singleton.2 rfl, by rw [List.append_assoc]; exact List.prefix_append _ _⟩, fun rest => ?_, by simp [hx], ?_⟩
      · unfold assColour lit
        rw [e, e2, List.append_assoc, stripPrefix_append]
        dsimp only
        have t : (h ++ '&' :: b2 ++ '}' :: rest).take 6 = h := by
          rw [List.append_assoc, ← h6, List.take_left]
        have d : (h ++ '&' :: b2 ++ '}' :: rest).drop 6 = '&' :: b2 ++ '}' :: rest := by
          rw [List.append_assoc, ← h6, List.drop_left]
        rw [t, d, if_pos ⟨h6, hhex⟩]
        rfl
      · intro c hc
        simp only [List.mem_append] at hc ⊢
        rcases hc with (hc | hc) | hc
        · exact .inr (.inl hc)
        · exact .inl (.inl (.inr hc))
        · exact .inr (.inr hc)
    · left
      intro rest
      unfold assColour lit
      rw [e, List.append_assoc, stripPrefix_append]
      dsimp only
      split
      · next hc =>
        split
        · next r hd =>
          exfalso
          have hs := List.take_append_drop 6 (b' ++ '}' :: rest)
          rw [hd] at hs
          generalize ht : (b' ++ '}' :: rest).take 6 = h at hs hc
          rcases List.append_eq_append_iff.1 hs with ⟨z, z1, z2⟩ | ⟨z, z1, z2⟩
          · cases z with
            | nil => injection z2 with z2 _; exact absurd z2 (by decide)
            | cons w z =>
              injection z2 with z2 z3
              exact hh ⟨h, z, by rw [z1, z2], hc.1, hc.2⟩
          · cases z with
            | nil => injection z2 with z2 _; exact absurd z2 (by decide)
            | cons w z =>
              injection z2 with z2 z3
              have : '}' ∈ h := by rw [z1, z2]; simp
              exact absurd (List.all_eq_true.1 hc.2 _ this) (by decide)
        · rfl
      · rfl
  · left
    intro rest
    unfold assColour lit
    rw [h rest]

theorem take_close {b : Str} (hb : '}' ∉ b) (rest : Str) : (b ++ '}' :: rest).takeWhile (· ≠ '}') = b ∧
    (b ++ '}' :: rest).dropWhile (· ≠ '}') = '}' :: rest := by
  have : ∀ c ∈ b, decide (c ≠ '}') = true := by
    intro c hc
    have : c ≠ '}' := fun e => hb (by rw [← e]; exact hc)
    simpa using this
  rw [List.takeWhile_append_of_pos this, List.dropWhile_append_of_pos this]
  simp

theorem inner_font (x y : Str) (hx : '<' ∈ x) : Inner ["\\fn".toList] (assFont x y) (x ++ y) := by
  intro b hb
  rcases strip_uniform (p := "\\fn".toList) (b := b) (by decide) with ⟨b', e⟩ | h
  · have hb' : '}' ∉ b' := fun h => hb (by rw [e]; exact List.mem_append_right _ h)
    by_cases hn : b' = []
    · left
      intro rest
      unfold assFont lit
      rw [e, List.append_assoc, stripPrefix_append]
      dsimp only
      rw [(take_close hb' rest).1, if_pos hn]
    · right
      refine ⟨x ++ b' ++ y, b, [], by simp, by
        have := List.length_pos_iff.2 hn
        rw [e, List.length_append]; simp; omega, ⟨_, List.mem_singleton.2 rfl, by rw [e]; exact List.prefix_append _ _⟩, fun rest => ?_, by simp [hx], ?_⟩
      · unfold assFont lit
        rw [e, List.append_assoc, stripPrefix_append]
        dsimp only
        rw [(take_close hb' rest).1, (take_close hb' rest).2, if_neg hn]
        rfl
      · intro c hc
        simp only [List.mem_append] at hc ⊢
        rcases hc with (hc | hc) | hc
        · exact .inr (.inl hc)
        · exact .inl (by rw [e]; exact List.mem_append_right _ hc)
        · exact .inr (.inr hc)
  · left
    intro rest
    unfold assFont lit
    rw [h rest]

/-! ## Stage by stage -/

/-- Choosing for every piece what it becomes. -/
theorem distR_some {α : Type} {m : Str → Option (Str × Str)} {P : α → Str → Prop} {f : α → Str} {l : List α}
    (h : ∀ x ∈ l, ∃ s, P x s ∧ DistR m (f x) s) : ∃ g, (∀ x ∈ l, P x (g x)) ∧ rewrite m (l.flatMap f) = l.flatMap g := by
  classical
  refine ⟨fun x => if hx : x ∈ l then (h x hx).choose else [], fun x hx => ?_, distR_all fun x hx => ?_⟩
  · simp only [hx, dif_pos]
    exact (h x hx).choose_spec.1
  · simp only [hx, dif_pos]
    exact (h x hx).choose_spec.2

theorem dist_some {α : Type} {F : Str → Str} (h0 : F [] = []) {P : α → Str → Prop} {f : α → Str} {l : List α}
    (h : ∀ x ∈ l, ∃ s, P x s ∧ Dist F (f x) s) : ∃ g, (∀ x ∈ l, P x (g x)) ∧ F (l.flatMap f) = l.flatMap g := by
  classical
  refine ⟨fun x => if hx : x ∈ l then (h x hx).choose else [], fun x hx => ?_, dist_all h0 fun x hx => ?_⟩
  · simp only [hx, dif_pos]
    exact (h x hx).choose_spec.1
  · simp only [hx, dif_pos]
    exact (h x hx).choose_spec.2

theorem replaceAll_nil {p r : Str} (hp : p ≠ []) : replaceAll p r [] = [] := by
  cases p with
  | nil => exact absurd rfl hp
  | cons a p => rfl

theorem replaces_nil : ∀ {tbl : List (Str × Str)}, (∀ p ∈ tbl, p.1 ≠ []) → replaces tbl [] = []
  | [], _ => rfl
  | (p, r) :: l, h => by
    rw [replaces, replaceAll_nil (h (p, r) (by simp)), replaces_nil fun q hq => h q (by simp [hq])]

/-- The texts that no stage changes. -/
def Still (s : Str) : Prop := '{' ∉ s ∧ '\\' ∉ s

theorem html_still {t : Tok} {l : List Sw} (h : (Piece.tok t).Ok l) : Still t.html := by
  cases t with
  | ch c =>
    refine ⟨fun hc => ?_, fun hc => ?_⟩
    · simp only [Tok.html, List.mem_singleton] at hc; exact h.1 hc.symm
    · simp only [Tok.html, List.mem_singleton] at hc; exact h.2 hc.symm
  | on x => cases x <;> exact ⟨by decide, by decide⟩
  | off x => cases x <;> exact ⟨by decide, by decide⟩

/-- Form of a piece after the breaks have been replaced. -/
def broken : Piece → Str
  | .tok t => t.ass
  | .hard => ['\n']
  | .soft => ['\n']
  | .block b => '{' :: b ++ ['}']

theorem dist_one {p r s : Str} (h : clear p s = true) : Dist (replaceAll p r) s s := fun rest => replaceAll_clear h rest

theorem tok_clear {t : Tok} {l : List Sw} (h : (Piece.tok t).Ok l) (c : Char) (hc : c = 'N' ∨ c = 'n') : clear ['\\', c] t.ass = true := by
  cases t with
  | ch d => exact clear_ch h.2
  | on x => rcases hc with rfl | rfl <;> cases x <;> decide
  | off x => rcases hc with rfl | rfl <;> cases x <;> decide

theorem breaks {l : List Sw} {ps : List Piece} (h : ∀ x ∈ ps, x.Ok l) :
    replaceAll "\\n".toList ['\n'] (replaceAll "\\N".toList ['\n'] (ps.flatMap Piece.ass)) = ps.flatMap broken := by
  have h1 : replaceAll "\\N".toList ['\n'] (ps.flatMap Piece.ass) =
      ps.flatMap fun x => match x with | .hard => ['\n'] | x => x.ass := by
    refine dist_all rfl fun x hx => ?_
    have ok := h x hx
    cases x with
    | tok t => exact dist_one (tok_clear ok 'N' (.inl rfl))
    | hard => exact fun rest => replaceAll_prefix ['\n'] (by decide) rest
    | soft => exact dist_one (by decide)
    | block b => exact dist_one (clear_block (by decide) ok.2.2.1 (by decide))
  rw [h1]
  refine dist_all rfl fun x hx => ?_
  have ok := h x hx
  cases x with
  | tok t => exact dist_one (tok_clear ok 'n' (.inr rfl))
  | hard => exact dist_one (by decide)
  | soft => exact fun rest => replaceAll_prefix ['\n'] (by decide) rest
  | block b => exact dist_one (clear_block (by decide) ok.2.2.2.1 (by decide))

/-- Forms of a piece in the stages that follow: switches have become tags, `ends` gives the blocks that have already become
something else, and a block is still a block without braces. -/
def Form (words : List Str) (extra : Str) (ends : List (Str × Str)) : Piece → Str → Prop
  | .tok t, s => s = t.html
  | .hard, s => s = ['\n']
  | .soft, s => s = ['\n']
  | .block b, s => (∃ r, (b, r) ∈ ends ∧ s = r) ∨
      (∀ r, (b, r) ∉ ends) ∧ ∃ b', Turns words extra b b' ∧ s = '{' :: b' ++ ['}']

theorem clear_still {p ps s : Str} {q : Char} (hp : p = q :: ps) (hs : q ∉ s) : clear p s = true := by
  rw [hp]; exact clear_none hs

theorem turns_braces {words : List Str} {extra b b' : Str} (h : Turns words extra b b') (he : '{' ∉ extra ∧ '}' ∉ extra) (h1 : '{' ∉ b) (h2 : '}' ∉ b) :
    '{' ∉ b' ∧ '}' ∉ b' :=
  ⟨fun h' => (h.2 _ h').elim h1 he.1, fun h' => (h.2 _ h').elim h2 he.2⟩

theorem turns_trans {words : List Str} {extra b b' b'' : Str} (h : Turns words extra b b') (h' : Turns words extra b' b'') :
    Turns words extra b b'' := by
  refine ⟨?_, fun c hc => ?_⟩
  · rcases h'.1 with e | e
    · rw [e]; exact h.1
    · refine .inr ⟨e.1, ?_⟩
      rcases h.1 with e' | e'
      · rw [← e']; exact e.2
      · exact e'.2
  · rcases h'.2 c hc with hc | hc
    · exact h.2 c hc
    · exact .inr hc

/-- A stage of a matcher. -/
theorem stage_match {m : Str → Option (Str × Str)} {words : List Str} {extra : Str} {ends : List (Str × Str)} {l : List Sw} {ps : List Piece}
    (hok : ∀ x ∈ ps, x.Ok l) (hs : Slash m) (hm : Inner words m extra) (he : '{' ∉ extra ∧ '}' ∉ extra)
    (hends : ∀ r ∈ ends, '\\' ∉ r.2) {f : Piece → Str} (hf : ∀ x ∈ ps, Form words extra ends x (f x)) :
    ∃ g, (∀ x ∈ ps, Form words extra ends x (g x)) ∧ rewrite m (ps.flatMap f) = ps.flatMap g := by
  refine distR_some fun x hx => ?_
  have ok := hok x hx
  have hx' := hf x hx
  cases x with
  | tok t => rw [hx']; exact ⟨_, rfl, distR_slash hs (html_still ok).2⟩
  | hard => rw [hx']; exact ⟨_, rfl, distR_slash hs (by decide)⟩
  | soft => rw [hx']; exact ⟨_, rfl, distR_slash hs (by decide)⟩
  | block b =>
    rcases hx' with ⟨r, hr, e⟩ | ⟨hn, b', ht, e⟩
    · rw [e]
      exact ⟨r, .inl ⟨r, hr, rfl⟩, distR_slash hs (hends _ hr)⟩
    · rw [e]
      have hb := turns_braces ht he ok.1 ok.2.1
      obtain ⟨b'', ht', hd⟩ := distR_block hs hm hb.2
      exact ⟨_, .inr ⟨hn, b'', turns_trans ht ht', rfl⟩, hd⟩

/-- A stage in which a certain block is replaced. -/
theorem stage_end {words : List Str} {extra : Str} {ends : List (Str × Str)} {l : List Sw} {ps : List Piece} (q r : Str) (hok : ∀ x ∈ ps, x.Ok l)
    (he : '{' ∉ extra ∧ '}' ∉ extra) (hends : ∀ r ∈ ends, '{' ∉ r.2) (hq : '}' ∉ q) (hq' : '<' ∉ q) (hlen : q.length ≤ 3)
    {f : Piece → Str} (hf : ∀ x ∈ ps, Form words extra ends x (f x)) :
    ∃ g, (∀ x ∈ ps, Form words extra (ends ++ [(q, r)]) x (g x)) ∧ replaceAll ('{' :: q ++ ['}']) r (ps.flatMap f) = ps.flatMap g := by
  refine dist_some (replaceAll_nil (by simp)) fun x hx => ?_
  have ok := hok x hx
  have hx' := hf x hx
  cases x with
  | tok t => rw [hx']; exact ⟨_, rfl, dist_one (clear_still rfl (html_still ok).1)⟩
  | hard => rw [hx']; exact ⟨_, rfl, dist_one (clear_still rfl (by decide))⟩
  | soft => rw [hx']; exact ⟨_, rfl, dist_one (clear_still rfl (by decide))⟩
  | block b =>
    rcases hx' with ⟨r', hr, e⟩ | ⟨hn, b', ht, e⟩
    · rw [e]
      exact ⟨r', .inl ⟨r', List.mem_append_left _ hr, rfl⟩, dist_one (clear_still rfl (hends _ hr))⟩
    · rw [e]
      have hb := turns_braces ht he ok.1 ok.2.1
      by_cases hbq : b = q
      · have : b' = q := by
          rcases ht.1 with e | e
          · rw [e, hbq]
          · have := e.2.1; rw [hbq] at this; omega
        rw [this]
        exact ⟨r, .inl ⟨r, by rw [hbq]; simp, rfl⟩, fun rest => replaceAll_prefix r (by simp) rest⟩
      · have hb' : q ≠ b' := by
          intro e
          rcases ht.1 with e' | e'
          · exact hbq (by rw [← e', e])
          · exact hq' (by rw [e]; exact e'.1)
        refine ⟨_, .inr ⟨?_, b', ht, rfl⟩, dist_one (clear_other hq hb.2 hb.1 hb')⟩
        intro r' hr'
        rcases List.mem_append.1 hr' with h | h
        · exact hn r' h
        · simp at h; exact hbq h.1

theorem inner_mono {w w' : List Str} {m : Str → Option (Str × Str)} {e e' : Str} (h : Inner w m e) (hw : ∀ x ∈ w, x ∈ w') (he : ∀ c ∈ e, c ∈ e') :
    Inner w' m e' := by
  intro b hb
  rcases h b hb with h | ⟨out, b1, b2, h1, h2, ⟨x, hx, hx'⟩, h3, h4, h5⟩
  · exact .inl h
  · exact .inr ⟨out, b1, b2, h1, h2, ⟨x, hw x hx, hx'⟩, h3, h4, fun c hc => (h5 c hc).imp id (he c)⟩

/-! ## Switches -/

theorem sw_clear {tbl : List (Str × Str)} {l : List Sw} (htbl : ∀ p ∈ tbl, ∃ x ∈ l, p.1 = ['{', '\\', x.letter, '1', '}'] ∨ p.1 = ['{', '\\', x.letter, '0', '}'])
    {b : Str} (h1 : '{' ∉ b) (h2 : '}' ∉ b) (hn : NotSwitch l b) : ∀ p ∈ tbl, clear p.1 ('{' :: b ++ ['}']) = true := by
  intro p hp
  obtain ⟨x, hx, e⟩ := htbl p hp
  have := hn x hx
  rcases e with e | e <;> rw [e]
  · refine clear_other (q := ['\\', x.letter, '1']) ?_ h2 h1 (Ne.symm this.1)
    cases x <;> decide
  · refine clear_other (q := ['\\', x.letter, '0']) ?_ h2 h1 (Ne.symm this.2)
    cases x <;> decide

theorem switches {tbl : List (Str × Str)} {l : List Sw} {words : List Str} {extra : Str}
    (htbl : ∀ p ∈ tbl, ∃ x ∈ l, p.1 = ['{', '\\', x.letter, '1', '}'] ∨ p.1 = ['{', '\\', x.letter, '0', '}'])
    (hsw : ∀ x ∈ l, Dist (replaces tbl) (Tok.on x).ass (Tok.on x).html ∧ Dist (replaces tbl) (Tok.off x).ass (Tok.off x).html)
    {ps : List Piece} (h : ∀ x ∈ ps, x.Ok l) :
    ∃ g, (∀ x ∈ ps, Form words extra [] x (g x)) ∧ replaces tbl (ps.flatMap broken) = ps.flatMap g := by
  have head : ∀ p ∈ tbl, ∃ q, p.1 = '{' :: q := by
    intro p hp
    obtain ⟨x, -, e | e⟩ := htbl p hp <;> exact ⟨_, e⟩
  have free : ∀ {s : Str}, '{' ∉ s → Dist (replaces tbl) s s := by
    intro s hs
    refine dist_replaces fun p hp => ?_
    obtain ⟨q, e⟩ := head p hp
    rw [e]; exact clear_none hs
  refine dist_some (replaces_nil fun p hp => ?_) fun x hx => ?_
  · obtain ⟨q, e⟩ := head p hp
    rw [e]; simp
  · have ok := h x hx
    cases x with
    | tok t =>
      refine ⟨_, rfl, ?_⟩
      cases t with
      | ch c => exact free (s := [c]) (by simpa [eq_comm] using ok.1)
      | on x => exact (hsw x ok).1
      | off x => exact (hsw x ok).2
    | hard => exact ⟨_, rfl, free (by decide)⟩
    | soft => exact ⟨_, rfl, free (by decide)⟩
    | block b => exact ⟨_, .inr ⟨by simp, b, ⟨.inl rfl, fun c hc => .inl hc⟩, rfl⟩, dist_replaces (sw_clear htbl ok.1 ok.2.1 ok.2.2.2.2)⟩

/-! ## Blocks disappear -/

theorem distR_free {p : Char} {ps : Str} {f : Str → Option (Str × Str)} {s : Str} (h : p ∉ s) : DistR (lit (p :: ps) f) s s :=
  distR_clear (clear_none h)

theorem distR_gone {b : Str} (hb : '}' ∉ b) : DistR assBlock ('{' :: b ++ ['}']) [] := by
  refine distR_match (by simp) fun rest => ?_
  unfold assBlock lit
  rw [show '{' :: b ++ ['}'] ++ rest = ['{'] ++ (b ++ '}' :: rest) by simp, stripPrefix_append]
  dsimp only
  unfold upTo
  rw [splitOnce_append rest hb]

/-- Forms before the last stage: blocks without braces, whatever is in them. -/
def Left (ends : List (Str × Str)) : Piece → Str → Prop
  | .tok t, s => s = t.html
  | .hard, s => s = ['\n']
  | .soft, s => s = ['\n']
  | .block b, s => (∃ r, (b, r) ∈ ends ∧ s = r) ∨ (∀ r, (b, r) ∉ ends) ∧ ∃ b', '}' ∉ b' ∧ s = '{' :: b' ++ ['}']

/-- What is left in the end. -/
def out (ends : List (Str × Str)) : Piece → Str
  | .tok t => t.html
  | .hard => ['\n']
  | .soft => ['\n']
  | .block b => (ends.lookup b).getD []

theorem lookup_none {b : Str} : ∀ {ends : List (Str × Str)}, (∀ r, (b, r) ∉ ends) → ends.lookup b = none
  | [], _ => rfl
  | (c, r) :: l, h => by
    rw [List.lookup]
    have : (b == c) = false := by
      rw [beq_eq_false_iff_ne]
      intro e
      exact h r (by rw [e]; exact List.mem_cons_self)
    rw [this]
    exact lookup_none fun r hr => h r (List.mem_cons_of_mem _ hr)

/-- The last stage. -/
theorem stage_gone {ends : List (Str × Str)} {l : List Sw} {ps : List Piece} (hok : ∀ x ∈ ps, x.Ok l)
    (hends : ∀ r ∈ ends, '{' ∉ r.2 ∧ ends.lookup r.1 = some r.2) {f : Piece → Str} (hf : ∀ x ∈ ps, Left ends x (f x)) :
    rewrite assBlock (ps.flatMap f) = ps.flatMap (out ends) := by
  refine distR_all fun x hx => ?_
  have ok := hok x hx
  have hx' := hf x hx
  cases x with
  | tok t => rw [hx']; exact distR_free (html_still ok).1
  | hard => rw [hx']; exact distR_free (by decide)
  | soft => rw [hx']; exact distR_free (by decide)
  | block b =>
    rcases hx' with ⟨r, hr, e⟩ | ⟨hn, b', hb', e⟩
    · have h := hends _ hr
      rw [e, out, h.2]
      exact distR_free h.1
    · rw [e, out, lookup_none hn]
      exact distR_gone hb'

theorem form_left {words : List Str} {extra : Str} {ends : List (Str × Str)} {l : List Sw} (he : '{' ∉ extra ∧ '}' ∉ extra) {x : Piece}
    (ok : x.Ok l) {s : Str} (h : Form words extra ends x s) : Left ends x s := by
  cases x with
  | tok t => exact h
  | hard => exact h
  | soft => exact h
  | block b =>
    rcases h with h | ⟨hn, b', ht, e⟩
    · exact .inl h
    · exact .inr ⟨hn, b', (turns_braces ht he ok.1 ok.2.1).2, e⟩

/-! ## SRT -/

def srtExtra : Str := "<font color=\"#".toList ++ "\">".toList ++ ("<font face=\"".toList ++ "\">".toList)

theorem assToSrt_pieces {ps : List Piece} (hok : ∀ x ∈ ps, x.Ok [.b, .i, .u, .s]) :
    assToSrt (ps.flatMap broken) = ps.flatMap Piece.srt := by
  unfold assToSrt
  dsimp only
  obtain ⟨g1, f1, e1⟩ := switches (tbl := assTagsSrt) (words := ["\\c&H".toList, "\\fn".toList]) (extra := srtExtra) (by
      intro p hp
      simp only [assTagsSrt, List.mem_cons, List.not_mem_nil, or_false] at hp
      rcases hp with rfl | rfl | rfl | rfl | rfl | rfl | rfl | rfl
      · exact ⟨.b, by decide, .inl rfl⟩
      · exact ⟨.b, by decide, .inr rfl⟩
      · exact ⟨.i, by decide, .inl rfl⟩
      · exact ⟨.i, by decide, .inr rfl⟩
      · exact ⟨.u, by decide, .inl rfl⟩
      · exact ⟨.u, by decide, .inr rfl⟩
      · exact ⟨.s, by decide, .inl rfl⟩
      · exact ⟨.s, by decide, .inr rfl⟩)
    (by intro x _; cases x <;> exact ⟨dist_tag (by decide) (by decide), dist_tag (by decide) (by decide)⟩) hok
  have he : '{' ∉ srtExtra ∧ '}' ∉ srtExtra := by decide
  have m1 : Inner ["\\c&H".toList, "\\fn".toList] (assColour "<font color=\"#".toList "\">".toList) srtExtra :=
    inner_mono (inner_colour _ _ (by decide)) (by simp) (fun c hc => List.mem_append_left _ hc)
  have m2 : Inner ["\\c&H".toList, "\\fn".toList] (assFont "<font face=\"".toList "\">".toList) srtExtra :=
    inner_mono (inner_font _ _ (by decide)) (by simp) (fun c hc => List.mem_append_right _ hc)
  rw [e1]
  obtain ⟨g2, f2, e2⟩ := stage_match hok (slash_colour _ _) m1 he (by simp) f1
  rw [e2]
  obtain ⟨g3, f3, e3⟩ := stage_end "\\c".toList "</font>".toList hok he (by simp) (by decide) (by decide) (by decide) f2
  rw [show "{\\c}".toList = '{' :: "\\c".toList ++ ['}'] from rfl, e3]
  obtain ⟨g4, f4, e4⟩ := stage_match hok (slash_font _ _) m2 he (by decide) f3
  rw [e4, stage_gone hok (by decide) (fun x hx => form_left he (hok x hx) (f4 x hx))]
  refine flatMap_congr fun x hx => ?_
  cases x with
  | tok t => rfl
  | hard => rfl
  | soft => rfl
  | block b =>
    rw [out, Piece.srt, List.nil_append, List.lookup]
    by_cases h : b = "\\c".toList
    · rw [if_pos h, h]; rfl
    · rw [if_neg h, beq_eq_false_iff_ne.2 h]; rfl

/-! ## WebVTT -/

theorem distR_lead {p : Str} {f : Str → Option (Str × Str)} {t : Str} : ∀ {a : Str}, (∀ w v, a = w ++ v → v ≠ [] → mismatch p (v ++ t) = true) →
    ∀ k rest, (a ++ (t ++ rest)).length ≤ k → ∃ k', (t ++ rest).length ≤ k' ∧
      rewriteAux (lit p f) k (a ++ (t ++ rest)) = a ++ rewriteAux (lit p f) k' (t ++ rest)
  | [], _, k, rest, hk => ⟨k, hk, rfl⟩
  | c :: a, h, k, rest, hk => by
    cases k with
    | zero => simp at hk
    | succ k =>
      obtain ⟨k', h1, h2⟩ := distR_lead (f := f) (a := a) (fun w v e hv => h (c :: w) v (by rw [e]; rfl) hv) k rest (by simp at hk ⊢; omega)
      refine ⟨k', h1, ?_⟩
      have hm : lit p f (c :: (a ++ (t ++ rest))) = none := by
        unfold lit
        have := mismatch_strip (h [] (c :: a) rfl (by simp)) rest
        rw [List.append_assoc] at this
        rw [show c :: (a ++ (t ++ rest)) = c :: a ++ (t ++ rest) from rfl, this]
      rw [List.cons_append, rewriteAux, hm]
      dsimp only
      rw [h2]; rfl

theorem pos_lead {p : Str} (hp : Lacks "\\pos(".toList p) : ∀ w v, '{' :: p = w ++ v → v ≠ [] → mismatch "\\pos(".toList (v ++ "\\pos(".toList) = true := by
  intro w v e hv
  cases v with
  | nil => exact absurd rfl hv
  | cons c v =>
    rw [show "\\pos(".toList = '\\' :: "pos(".toList from rfl, List.cons_append, mismatch]
    by_cases hc : '\\' = c
    · subst hc
      rw [mismatch_of (x := '\\') (v := v) "pos(".toList (by decide) ?_, Bool.or_true]
      rintro ⟨t, e'⟩
      cases w with
      | nil => injection e with e _; exact absurd e (by decide)
      | cons d w =>
        injection e with _ e
        exact hp w t (by rw [e, ← e']; simp)
    · simp [hc]

theorem upTo1_append {x : Str} {c : Char} (hx : x ≠ []) (hc : c ∉ x) (rest : Str) : upTo1 c (x ++ c :: rest) = some (x, rest) := by
  unfold upTo1
  rw [splitOnce_append rest hc]
  cases x with
  | nil => exact absurd rfl hx
  | cons d x => rfl

theorem pos_match {x y : Str} (hx : x ≠ []) (hx' : ',' ∉ x) (hy : y ≠ []) (hy' : ')' ∉ y) :
    DistR assPos ("\\pos(".toList ++ x ++ ",".toList ++ y ++ ")".toList) [] := by
  refine distR_match (by simp) fun rest => ?_
  unfold assPos lit
  rw [show "\\pos(".toList ++ x ++ ",".toList ++ y ++ ")".toList ++ rest = "\\pos(".toList ++ (x ++ ',' :: (y ++ ')' :: rest)) by simp,
    stripPrefix_append]
  dsimp only
  rw [upTo1_append hx hx']
  dsimp only
  rw [upTo1_append hy hy']

theorem distR_pos {p x y q : Str} (hp : Lacks "\\pos(".toList p) (hq : Lacks "\\pos(".toList q) (hx : x ≠ []) (hx' : ',' ∉ x) (hy : y ≠ [])
    (hy' : ')' ∉ y) : DistR assPos ('{' :: (p ++ "\\pos(".toList ++ x ++ ",".toList ++ y ++ ")".toList ++ q) ++ ['}']) ('{' :: (p ++ q) ++ ['}']) := by
  intro k rest hk
  have e : '{' :: (p ++ "\\pos(".toList ++ x ++ ",".toList ++ y ++ ")".toList ++ q) ++ ['}'] ++ rest =
      ('{' :: p) ++ ("\\pos(".toList ++ (x ++ ",".toList ++ y ++ ")".toList ++ (q ++ ['}'] ++ rest))) := by simp
  rw [e] at hk ⊢
  obtain ⟨k1, h1, e1⟩ := distR_lead (f := _) (pos_lead hp) k _ hk
  have e' : "\\pos(".toList ++ (x ++ ",".toList ++ y ++ ")".toList ++ (q ++ ['}'] ++ rest)) =
      "\\pos(".toList ++ x ++ ",".toList ++ y ++ ")".toList ++ (q ++ ['}'] ++ rest) := by simp
  have hc : clear "\\pos(".toList (q ++ ['}']) = true := clear_lacks (by decide) hq (by decide)
  obtain ⟨k2, h2, e2⟩ := pos_match hx hx' hy hy' k1 (q ++ ['}'] ++ rest) (by rw [← e']; exact h1)
  obtain ⟨k3, h3, e3⟩ := distR_clear (f := _) hc k2 rest h2
  refine ⟨k3, h3, ?_⟩
  unfold assPos at e2 ⊢
  rw [e1, e', e2, e3]
  simp

def vttExtra : Str := "<c.".toList ++ ">".toList ++ ("<v ".toList ++ ">".toList)

theorem lacks_mem {p s : Str} {c : Char} (hp : c ∈ p) (hs : c ∉ s) : Lacks p s := by
  intro a b e
  exact hs (by rw [e]; simp [hp])

theorem assToVtt_pieces {ps : List Piece} (hok : ∀ x ∈ ps, x.Ok [.b, .i, .u]) (hcl : ∀ x ∈ ps, x.Closed) :
    assToVtt (ps.flatMap broken) = ps.flatMap Piece.vtt := by
  unfold assToVtt
  dsimp only
  obtain ⟨g1, f1, e1⟩ := switches (tbl := assTagsVtt) (words := ["\\c&H".toList, "\\fn".toList]) (extra := vttExtra) (by
      intro p hp
      simp only [assTagsVtt, List.mem_cons, List.not_mem_nil, or_false] at hp
      rcases hp with rfl | rfl | rfl | rfl | rfl | rfl
      · exact ⟨.b, by decide, .inl rfl⟩
      · exact ⟨.b, by decide, .inr rfl⟩
      · exact ⟨.i, by decide, .inl rfl⟩
      · exact ⟨.i, by decide, .inr rfl⟩
      · exact ⟨.u, by decide, .inl rfl⟩
      · exact ⟨.u, by decide, .inr rfl⟩)
    (by
      intro x hx
      cases x with
      | s => exact absurd hx (by decide)
      | _ => exact ⟨dist_tag (by decide) (by decide), dist_tag (by decide) (by decide)⟩) hok
  have he : '{' ∉ vttExtra ∧ '}' ∉ vttExtra := by decide
  have m1 : Inner ["\\c&H".toList, "\\fn".toList] (assColour "<c.".toList ">".toList) vttExtra :=
    inner_mono (inner_colour _ _ (by decide)) (by simp) (fun c hc => List.mem_append_left _ hc)
  have m2 : Inner ["\\c&H".toList, "\\fn".toList] (assFont "<v ".toList ">".toList) vttExtra :=
    inner_mono (inner_font _ _ (by decide)) (by simp) (fun c hc => List.mem_append_right _ hc)
  rw [e1]
  obtain ⟨g2, f2, e2⟩ := stage_match hok (slash_colour _ _) m1 he (by simp) f1
  rw [e2]
  obtain ⟨g3, f3, e3⟩ := stage_end "\\c".toList "</c>".toList hok he (by simp) (by decide) (by decide) (by decide) f2
  rw [show "{\\c}".toList = '{' :: "\\c".toList ++ ['}'] from rfl, e3]
  obtain ⟨g4, f4, e4⟩ := stage_match hok (slash_font _ _) m2 he (by decide) f3
  rw [e4]
  obtain ⟨g5, f5, e5⟩ := stage_end "\\fn".toList "</v>".toList hok he (by decide) (by decide) (by decide) (by decide) f4
  rw [show "{\\fn}".toList = '{' :: "\\fn".toList ++ ['}'] from rfl, e5]
  have : ∃ g, (∀ x ∈ ps, Left ([] ++ [("\\c".toList, "</c>".toList)] ++ [("\\fn".toList, "</v>".toList)]) x (g x)) ∧
      rewrite assPos (ps.flatMap g5) = ps.flatMap g := by
    refine distR_some fun x hx => ?_
    have ok := hok x hx
    have hx' := f5 x hx
    have cl := hcl x hx
    cases x with
    | tok t => rw [hx']; exact ⟨_, rfl, distR_free (html_still ok).2⟩
    | hard => rw [hx']; exact ⟨_, rfl, distR_free (by decide)⟩
    | soft => rw [hx']; exact ⟨_, rfl, distR_free (by decide)⟩
    | block b =>
      rcases hx' with ⟨r, hr, e⟩ | ⟨hn, b', ht, e⟩
      · rw [e]
        refine ⟨r, .inl ⟨r, hr, rfl⟩, distR_free ?_⟩
        simp at hr
        rcases hr with ⟨-, rfl⟩ | ⟨-, rfl⟩ <;> decide
      · rw [e]
        have hb := turns_braces ht he ok.1 ok.2.1
        rcases cl with hp | ⟨l1, l2, hp⟩
        · have : '(' ∉ b' := fun h => (ht.2 _ h).elim hp (by decide)
          exact ⟨_, .inr ⟨hn, b', hb.2, rfl⟩, distR_clear (clear_block (by decide) (lacks_mem (by decide) this) (by decide))⟩
        · have hbb : b' = b := by
            rcases ht.1 with h | ⟨-, -, w, hw, h⟩
            · exact h
            · simp at hw
              rcases hw with rfl | rfl
              · exact absurd l2 h
              · exact absurd l1 h
          subst hbb
          rcases hp with hp | ⟨p, x, y, q, e', h1, h2, h3, h4, h5, h6⟩
          · exact ⟨_, .inr ⟨hn, b', hb.2, rfl⟩, distR_clear (clear_block (by decide) hp (by decide))⟩
          · refine ⟨'{' :: (p ++ q) ++ ['}'], .inr ⟨hn, p ++ q, ?_, rfl⟩, ?_⟩
            · intro h
              apply hb.2
              rw [e']
              rcases List.mem_append.1 h with h | h <;> simp [h]
            · rw [e']; exact distR_pos h1 h2 h3 h4 h5 h6
  obtain ⟨g6, f6, e6⟩ := this
  rw [e6, stage_gone hok (by decide) f6]
  refine flatMap_congr fun x hx => ?_
  cases x with
  | tok t => rfl
  | hard => rfl
  | soft => rfl
  | block b =>
    rw [out, Piece.vtt]
    by_cases h : b = "\\c".toList
    · rw [if_pos h, h]; rfl
    · rw [if_neg h]
      by_cases h' : b = "\\fn".toList
      · rw [if_pos h', h']; rfl
      · rw [if_neg h', lookup_none]
        · rfl
        · intro r hr
          simp at hr
          rcases hr with hr | hr
          · exact h hr.1
          · exact h' hr.1

/-! ## Files -/

theorem files {conv : Str → Str} {sep : Char} {time : Time → Str} {piece : Piece → Str} {sw : List Sw}
    (ht : ∀ t : Time, t.Ok → t.Given → fmtFormat sep t.ass = .ok (time t)) {evs : List Ev} {l : List Line} (h : Shows evs l)
    (hok : ∀ x ∈ l, x.Ok sw) (hc : ∀ x ∈ l, conv (x.text.flatMap broken) = x.text.flatMap piece) :
    ∀ n, exportFrom conv sep n evs = .ok (entries time piece n l, l.length) := by
  induction h with
  | nil => intro n; rfl
  | other e evs l he h ih =>
    intro n
    rw [exportFrom, he]
    exact ih hok hc n
  | cons x evs l h ih =>
    intro n
    have ok := hok x (by simp)
    have ih := ih (fun y hy => hok y (by simp [hy])) (fun y hy => hc y (by simp [hy])) (n + 1)
    rw [exportFrom]
    simp only [if_true, ht _ ok.start.1 ok.start.2, ht _ ok.stop.1 ok.stop.2, ih]
    unfold exportText
    rw [breaks ok.text, hc x (by simp), entries]
    simp [showNat]

/-- **C99 (SRT, override blocks).**  For events whose texts are made of characters, switches, line breaks and any other
override blocks, the SRT file has one numbered subtitle for every Dialogue event, in order: the switches `{\b1}` to `{\s0}` are
the tags `<b>` to `</s>`, both kinds of line breaks are line feeds, `{\c}` is `</font>`, and every other block is gone with all
that is in it.

Missing: blocks with braces or line breaks in them, braces that open no block, and backslashes outside blocks that are not
line breaks. -/
theorem C99_srt_blocks_partial {evs : List Ev} {l : List Line} (h : Shows evs l) (hok : ∀ x ∈ l, x.Ok [.b, .i, .u, .s]) :
    exportSrt evs = .ok (entries Time.srt Piece.srt 1 l, l.length) :=
  files (fun _ => srt_written) h hok (fun x hx => assToSrt_pieces (hok x hx).text) 1

/-- **C99 (WebVTT, override blocks).**  The same for WebVTT, with the header, where strike out is not known and disappears,
`{\c}` is `</c>` and `{\fn}` is `</v>`.

Missing: as for SRT, and blocks with a parenthesis beside a font or a colour, with more than one position, or with a position
that is not complete. -/
theorem C99_vtt_blocks_partial {evs : List Ev} {l : List Line} (h : Shows evs l) (hok : ∀ x ∈ l, x.Ok [.b, .i, .u])
    (hcl : ∀ x ∈ l, ∀ p ∈ x.text, p.Closed) :
    exportVtt evs = .ok ("WEBVTT\n\n".toList ++ entries Time.vtt Piece.vtt 1 l, l.length) := by
  unfold exportVtt
  rw [files (fun _ => vtt_written) h hok (fun x hx => assToVtt_pieces (hok x hx).text (hcl x hx)) 1]

/-- Two lines of pieces, a comment between them. -/
def pieces : List Piece := [.block "\\pos(3,4)\\blur2".toList, .tok (.on .b), .tok (.ch 'A'), .tok (.off .b), .hard, .block "\\c&H0000FF&".toList, .tok (.ch 'b'),
  .block "\\c".toList, .soft, .block "\\fnArial".toList, .tok (.ch 'c'), .block "\\fn".toList]

def twoLines : List Line := [⟨⟨0, 0, 1, 500⟩, ⟨0, 0, 4, 0⟩, pieces⟩, ⟨⟨1, 2, 3, 40⟩, ⟨1, 2, 5, 60⟩, [.tok (.ch 'x'), .block "note".toList]⟩]

def twoEvs : List Ev :=
  [⟨true, "0:00:01.50".toList, "0:00:04.00".toList, "{\\pos(3,4)\\blur2}{\\b1}A{\\b0}\\N{\\c&H0000FF&}b{\\c}\\n{\\fnArial}c{\\fn}".toList⟩,
   ⟨false, "?".toList, [], "no".toList⟩, ⟨true, "1:02:03.04".toList, "1:02:05.06".toList, "x{note}".toList⟩]

theorem two_shown : Shows twoEvs twoLines := by
  have e : twoEvs = [⟨true, (Time.mk 0 0 1 500).ass, (Time.mk 0 0 4 0).ass, pieces.flatMap Piece.ass⟩, ⟨false, "?".toList, [], "no".toList⟩,
      ⟨true, (Time.mk 1 2 3 40).ass, (Time.mk 1 2 5 60).ass, [Piece.tok (.ch 'x'), .block "note".toList].flatMap Piece.ass⟩] := by decide +kernel
  rw [e]
  exact .cons ⟨⟨0, 0, 1, 500⟩, ⟨0, 0, 4, 0⟩, pieces⟩ _ _ (.other _ _ _ rfl (.cons ⟨⟨1, 2, 3, 40⟩, ⟨1, 2, 5, 60⟩, _⟩ _ _ .nil))

/-- Whether a word occurs, for the examples. -/
def occurs (p : Str) : Str → Bool
  | [] => p.isPrefixOf []
  | c :: s => p.isPrefixOf (c :: s) || occurs p s

theorem lacks_of {p : Str} : ∀ {s : Str}, occurs p s = false → Lacks p s
  | [], h, a, b, e => by
    have : a = [] ∧ p = [] ∧ b = [] := by simpa [and_assoc] using e.symm
    rw [this.2.1] at h
    cases h
  | c :: s, h, a, b, e => by
    simp only [occurs, Bool.or_eq_false_iff] at h
    cases a with
    | nil =>
      have : p.isPrefixOf (c :: s) = true := by
        rw [List.isPrefixOf_iff_prefix]
        exact ⟨b, by rw [e]; rfl⟩
      rw [h.1] at this; cases this
    | cons d a =>
      injection e with _ e
      exact lacks_of h.2 a b e

theorem two_ok (sw : List Sw) (hb : .b ∈ sw) : ∀ x ∈ twoLines, x.Ok sw := by
  have blk : ∀ b : Str, '{' ∉ b → '}' ∉ b → occurs "\\N".toList b = false → occurs "\\n".toList b = false → (b.length ≠ 3 ∨ b.getLast? = some 'n') →
      (Piece.block b).Ok sw := by
    intro b h1 h2 h3 h4 h5
    refine ⟨h1, h2, lacks_of h3, lacks_of h4, fun x _ => ⟨?_, ?_⟩⟩
    all_goals
      rintro rfl
      rcases h5 with h5 | h5
      · exact h5 rfl
      · simp at h5
  intro x hx
  simp only [twoLines, List.mem_cons, List.not_mem_nil, or_false] at hx
  rcases hx with rfl | rfl
  · refine ⟨⟨⟨by decide, by decide, by decide⟩, by unfold Time.Given; decide⟩, ⟨⟨by decide, by decide, by decide⟩, by unfold Time.Given; decide⟩, ?_⟩
    intro p hp
    simp only [pieces, List.mem_cons, List.not_mem_nil, or_false] at hp
    rcases hp with rfl | rfl | rfl | rfl | rfl | rfl | rfl | rfl | rfl | rfl | rfl | rfl
    · exact blk _ (by decide) (by decide) (by decide) (by decide) (by decide)
    · exact hb
    · exact ⟨by decide, by decide⟩
    · exact hb
    · trivial
    · exact blk _ (by decide) (by decide) (by decide) (by decide) (by decide)
    · exact ⟨by decide, by decide⟩
    · exact blk _ (by decide) (by decide) (by decide) (by decide) (by decide)
    · trivial
    · exact blk _ (by decide) (by decide) (by decide) (by decide) (by decide)
    · exact ⟨by decide, by decide⟩
    · exact blk _ (by decide) (by decide) (by decide) (by decide) (by decide)
  · refine ⟨⟨⟨by decide, by decide, by decide⟩, by unfold Time.Given; decide⟩, ⟨⟨by decide, by decide, by decide⟩, by unfold Time.Given; decide⟩, ?_⟩
    intro p hp
    simp only [List.mem_cons, List.not_mem_nil, or_false] at hp
    rcases hp with rfl | rfl
    · exact ⟨by decide, by decide⟩
    · exact blk _ (by decide) (by decide) (by decide) (by decide) (by decide)

example : exportSrt twoEvs = .ok ("1\n00:00:01,500 --> 00:00:04,000\n<b>A</b>\nb</font>\nc\n\n2\n01:02:03,040 --> 01:02:05,060\nx\n\n".toList, 2) := by
  rw [C99_srt_blocks_partial two_shown (two_ok _ (by decide))]; decide +kernel

example : exportVtt twoEvs = .ok ("WEBVTT\n\n1\n00:00:01.500 --> 00:00:04.000\n<b>A</b>\nb</c>\nc</v>\n\n2\n01:02:03.040 --> 01:02:05.060\nx\n\n".toList, 2) := by
  rw [C99_vtt_blocks_partial two_shown (two_ok _ (by decide)) ?_]
  · decide +kernel
  · intro x hx p hp
    simp only [twoLines, List.mem_cons, List.not_mem_nil, or_false] at hx
    rcases hx with rfl | rfl
    · simp only [pieces, List.mem_cons, List.not_mem_nil, or_false] at hp
      rcases hp with rfl | rfl | rfl | rfl | rfl | rfl | rfl | rfl | rfl | rfl | rfl | rfl
      · exact .inr ⟨lacks_of (by decide), lacks_of (by decide), .inr ⟨[], "3".toList, "4".toList, "\\blur2".toList, by decide, lacks_of (by decide),
          lacks_of (by decide), by decide, by decide, by decide, by decide⟩⟩
      all_goals first | trivial | exact .inl (by decide)
    · simp only [List.mem_cons, List.not_mem_nil, or_false] at hp
      rcases hp with rfl | rfl
      · trivial
      · exact .inl (by decide)

end Verif.Props.ExportMarkup
