import Verif.Model.SrtDoc
import Verif.Spec.SrtDoc
import Verif.Lemmas.StrX
import Verif.Props.Formats
/-! Lemmas for C63, C64. -/
namespace Verif.SrtDoc
open Verif Verif.Formats Verif.Spec.Fmt Verif.Spec.SrtDoc

/-! ## Replacing tokens -/

/-- The two texts differ at a common position. -/
def mismatch : Str → Str → Bool
  | p :: ps, c :: cs => p != c || mismatch ps cs
  | _, _ => false

theorem mismatch_strip {p x : Str} (h : mismatch p x = true) (rest : Str) : stripPrefix p (x ++ rest) = none := by
  induction p generalizing x with
  | nil => simp [mismatch] at h
  | cons p ps ih =>
    cases x with
    | nil => simp [mismatch] at h
    | cons c cs =>
      simp only [mismatch, Bool.or_eq_true, bne_iff_ne] at h
      simp only [List.cons_append, stripPrefix]
      by_cases e : p = c
      · rw [if_pos e]; exact ih (h.resolve_left (fun h => h e))
      · rw [if_neg e]

/-- `p` cannot start inside `x`, whatever follows. -/
def clear (p : Str) : Str → Bool
  | [] => true
  | c :: x => mismatch p (c :: x) && clear p x

theorem replaceAll_clear {p r x : Str} (h : clear p x = true) (rest : Str) :
    replaceAll p r (x ++ rest) = x ++ replaceAll p r rest := by
  induction x with
  | nil => rfl
  | cons c x ih =>
    simp only [clear, Bool.and_eq_true] at h
    rw [List.cons_append, replaceAll_cons (show stripPrefix p (c :: (x ++ rest)) = none from mismatch_strip h.1 rest), ih h.2]; rfl

theorem replace_tok {p r : Str} (hp : p ≠ []) (f g : Tok → Str) (toks : List Tok)
    (h : ∀ t ∈ toks, (f t = p ∧ g t = r) ∨ (g t = f t ∧ clear p (f t) = true)) :
    replaceAll p r (toks.flatMap f) = toks.flatMap g := by
  induction toks with
  | nil => rfl
  | cons t l ih =>
    have ih := ih (fun t ht => h t (by simp [ht]))
    rw [List.flatMap_cons, List.flatMap_cons, ← ih]
    rcases h t (by simp) with ⟨e1, e2⟩ | ⟨e1, e2⟩
    · rw [e1, e2, replaceAll_prefix r hp]
    · rw [e1, replaceAll_clear e2]

/-- The HTML-like form of a piece. -/
def html : Tok → Str
  | .ch c => [c]
  | .i1 => "<i>".toList | .i0 => "</i>".toList
  | .b1 => "<b>".toList | .b0 => "</b>".toList
  | .u1 => "<u>".toList | .u0 => "</u>".toList

/-- Pieces numbered in the order the replacements are made. -/
def rank : Tok → Nat
  | .ch _ => 0 | .i1 => 1 | .i0 => 2 | .b1 => 3 | .b0 => 4 | .u1 => 5 | .u0 => 6

/-- The first `n` replacements done. -/
def upTo (n : Nat) (t : Tok) : Str := if rank t ≤ n then html t else t.ass

/-- The first `n` replacements of the way back done. -/
def downTo (n : Nat) (t : Tok) : Str := if rank t ≤ n then t.ass else html t

/-- No brace and no `<`. -/
def Plain (toks : List Tok) : Prop := ∀ c, Tok.ch c ∈ toks → c ≠ '{' ∧ c ≠ '<'

theorem clear_ch {p : Char} {ps : Str} {c : Char} (h : c ≠ p) : clear (p :: ps) [c] = true := by
  have : p ≠ c := fun e => h e.symm
  simp [clear, mismatch, this]

theorem toHtml (toks : List Tok) (h : Plain toks) :
    convertAssFormatting (toks.flatMap Tok.ass) = toks.flatMap html := by
  unfold convertAssFormatting
  have s0 : toks.flatMap Tok.ass = toks.flatMap (upTo 0) := by
    congr 1; funext t; cases t <;> rfl
  have step : ∀ (n : Nat) (p r : Str), p ≠ [] → p.head? = some '{' →
      (∀ t, (∀ c, t ≠ .ch c) → (upTo n t = p ∧ upTo (n + 1) t = r) ∨ (upTo (n + 1) t = upTo n t ∧ clear p (upTo n t) = true)) →
      replaceAll p r (toks.flatMap (upTo n)) = toks.flatMap (upTo (n + 1)) := by
    intro n p r hp hh ht
    apply replace_tok hp
    intro t hm
    cases t with
    | ch c =>
      refine .inr ⟨by simp [upTo, rank], ?_⟩
      match p, hh with
      | x :: ps, hh =>
        simp at hh; subst hh
        exact clear_ch (h c hm).1
    | _ => exact ht _ (by simp)
  have fin : ∀ (n : Nat) (p r : Str),
      ((∀ t ∈ [Tok.i1, .i0, .b1, .b0, .u1, .u0], (upTo n t = p ∧ upTo (n + 1) t = r) ∨ (upTo (n + 1) t = upTo n t ∧ clear p (upTo n t) = true)) →
      (∀ t, (∀ c, t ≠ .ch c) → (upTo n t = p ∧ upTo (n + 1) t = r) ∨ (upTo (n + 1) t = upTo n t ∧ clear p (upTo n t) = true))) := by
    intro n p r h t ht
    cases t with
    | ch c => exact absurd rfl (ht c)
    | _ => exact h _ (by simp)
  simp only
  rw [s0, step 0 _ _ (by decide) (by decide) (fin _ _ _ (by decide)), step 1 _ _ (by decide) (by decide) (fin _ _ _ (by decide)),
    step 2 _ _ (by decide) (by decide) (fin _ _ _ (by decide)), step 3 _ _ (by decide) (by decide) (fin _ _ _ (by decide)),
    step 4 _ _ (by decide) (by decide) (fin _ _ _ (by decide)), step 5 _ _ (by decide) (by decide) (fin _ _ _ (by decide))]
  have s6 : toks.flatMap (upTo 6) = toks.flatMap html := by
    congr 1; funext t; cases t <;> rfl
  rw [s6]
  rw [Props.C30_untouched]
  intro a b c e
  have : '{' ∈ toks.flatMap html := by rw [e]; simp
  obtain ⟨t, ht, hc⟩ := List.mem_flatMap.1 this
  cases t with
  | ch c => simp [html] at hc; exact (h c ht).1 hc.symm
  | _ => simp [html] at hc

theorem fromHtml (toks : List Tok) (h : Plain toks) : htmlToAss (toks.flatMap html) = toks.flatMap Tok.ass := by
  unfold htmlToAss
  have s0 : toks.flatMap html = toks.flatMap (downTo 0) := by
    congr 1; funext t; cases t <;> rfl
  have step : ∀ (n : Nat) (p r : Str), p ≠ [] → p.head? = some '<' →
      (∀ t, (∀ c, t ≠ .ch c) → (downTo n t = p ∧ downTo (n + 1) t = r) ∨ (downTo (n + 1) t = downTo n t ∧ clear p (downTo n t) = true)) →
      replaceAll p r (toks.flatMap (downTo n)) = toks.flatMap (downTo (n + 1)) := by
    intro n p r hp hh ht
    apply replace_tok hp
    intro t hm
    cases t with
    | ch c =>
      refine .inr ⟨by simp [downTo, rank], ?_⟩
      match p, hh with
      | x :: ps, hh =>
        simp at hh; subst hh
        exact clear_ch (h c hm).2
    | _ => exact ht _ (by simp)
  have fin : ∀ (n : Nat) (p r : Str),
      ((∀ t ∈ [Tok.i1, .i0, .b1, .b0, .u1, .u0], (downTo n t = p ∧ downTo (n + 1) t = r) ∨ (downTo (n + 1) t = downTo n t ∧ clear p (downTo n t) = true)) →
      (∀ t, (∀ c, t ≠ .ch c) → (downTo n t = p ∧ downTo (n + 1) t = r) ∨ (downTo (n + 1) t = downTo n t ∧ clear p (downTo n t) = true))) := by
    intro n p r h t ht
    cases t with
    | ch c => exact absurd rfl (ht c)
    | _ => exact h _ (by simp)
  simp only
  rw [s0, step 0 _ _ (by decide) (by decide) (fin _ _ _ (by decide)), step 1 _ _ (by decide) (by decide) (fin _ _ _ (by decide)),
    step 2 _ _ (by decide) (by decide) (fin _ _ _ (by decide)), step 3 _ _ (by decide) (by decide) (fin _ _ _ (by decide)),
    step 4 _ _ (by decide) (by decide) (fin _ _ _ (by decide)), step 5 _ _ (by decide) (by decide) (fin _ _ _ (by decide))]
  congr 1; funext t; cases t <;> rfl

theorem removeHtml_plain {s : Str} (h : '<' ∉ s) : removeHtml s = s := by
  unfold removeHtml
  generalize s.length = k
  induction s generalizing k with
  | nil => cases k <;> rfl
  | cons c s ih =>
    have hc : c ≠ '<' := fun e => h (by simp [e])
    cases k with
    | zero => rfl
    | succ k => simp [removeHtmlAux, hc, ih (fun h' => h (by simp [h']))]

theorem removeVoice_plain {s : Str} (h : '<' ∉ s) (k : Nat) : removeVoiceAux k s = s := by
  induction s generalizing k with
  | nil => cases k <;> rfl
  | cons c s ih =>
    have hc : c ≠ '<' := fun e => h (by simp [e])
    have hc' : ¬ '<' = c := fun e => hc e.symm
    cases k with
    | zero => rfl
    | succ k => simp [removeVoiceAux, stripPrefix, hc', ih (fun h' => h (by simp [h']))]

theorem no_lt_ass {toks : List Tok} (h : Plain toks) : '<' ∉ toks.flatMap Tok.ass := by
  intro hm
  obtain ⟨t, ht, hc⟩ := List.mem_flatMap.1 hm
  cases t with
  | ch c => simp [Tok.ass] at hc; exact (h c ht).2 hc.symm
  | _ => simp [Tok.ass] at hc

theorem convertSrt_html (toks : List Tok) (h : Plain toks) :
    convertSrtFormatting (toks.flatMap html) = toks.flatMap Tok.ass := by
  unfold convertSrtFormatting
  rw [fromHtml toks h, removeHtml_plain (no_lt_ass h)]

theorem convertVtt_html (toks : List Tok) (h : Plain toks) :
    convertVttFormatting (toks.flatMap html) = toks.flatMap Tok.ass := by
  unfold convertVttFormatting
  have := no_lt_ass h
  simp only
  rw [fromHtml toks h, removeVoice_plain this, replaceAll_lacks (pat := "</v>".toList) (lacks_of_not_mem (p := '<') (ps := "/v>".toList) this), removeHtml_plain this]

/-! ## Lines -/

/-- A pattern without `<` matching at the start of the HTML form also matches the event's form. -/
theorem prefix_html_ass {pat : Str} (hp : '<' ∉ pat) (toks : List Tok) (t : Str) (h : toks.flatMap html = pat ++ t) :
    ∃ t', toks.flatMap Tok.ass = pat ++ t' := by
  induction pat generalizing toks with
  | nil => exact ⟨_, rfl⟩
  | cons p ps ih =>
    cases toks with
    | nil => simp at h
    | cons k l =>
      have hp' : ¬ '<' = p := fun e => hp (by rw [e]; simp)
      cases k with
      | ch c =>
        simp [html] at h
        obtain ⟨t', ht'⟩ := ih (fun h' => hp (by simp [h'])) l h.2
        exact ⟨t', by simp [Tok.ass, h.1, ht']⟩
      | _ => simp [html] at h; exact absurd h.1 hp'

theorem lacks_html {p : Char} {ps : Str} (hp : '<' ∉ p :: ps) (hq : p ∉ "<i></b></u>".toList) (toks : List Tok)
    (h : Lacks (p :: ps) (toks.flatMap Tok.ass)) : Lacks (p :: ps) (toks.flatMap html) := by
  induction toks with
  | nil => intro a b e; simp at e
  | cons t l ih =>
    have hl : Lacks (p :: ps) (l.flatMap html) := ih (fun a b e => h (t.ass ++ a) b (by simp [e]))
    have pre : ∀ x : Str, p ∉ x → ∀ a b, x ++ l.flatMap html ≠ a ++ p :: ps ++ b := by
      intro x hx a b e
      rw [List.append_assoc] at e
      rcases List.append_eq_append_iff.1 e with ⟨y, e1, e2⟩ | ⟨y, e1, e2⟩
      · exact hl y b (by simpa using e2)
      · cases y with
        | nil => exact hl [] b (by simpa using e2.symm)
        | cons z y => simp at e2; exact hx (by rw [e1, ← e2.1]; simp)
    cases t with
    | ch c =>
      show ∀ a b, c :: l.flatMap html ≠ _
      rw [lacks_cons]
      refine ⟨?_, hl⟩
      rw [stripPrefix_eq_none]
      intro t e
      obtain ⟨t', e'⟩ := prefix_html_ass hp (.ch c :: l) t (by simpa [html] using e)
      exact h [] t' (by simpa using e')
    | _ =>
      refine pre _ ?_
      intro hm
      apply hq
      simp [html] at hm ⊢
      rcases hm with rfl | rfl | rfl | rfl <;> simp
      

theorem white_iff (c : Char) : isWs c = true ↔ White c := by
  unfold isWs White
  simp only [Bool.or_eq_true, Bool.and_eq_true, decide_eq_true_eq, beq_iff_eq]
  constructor <;> intro h <;> omega

theorem not_white {c : Char} (h : ¬ White c) : isWs c = false := by
  cases e : isWs c with
  | false => rfl
  | true => exact absurd ((white_iff c).1 e) h

theorem html_ne_nil (t : Tok) : html t ≠ [] := by cases t <;> simp [html]

/-- What a carried line looks like in the exported file. -/
theorem carried_html {l : List Tok} (h : Carried l) :
    l.flatMap html ≠ [] ∧ '\n' ∉ l.flatMap html ∧ (l.flatMap html).getLast? ≠ some '\r' ∧
    trim (l.flatMap html) = l.flatMap html ∧ containsStr "-->".toList (l.flatMap html) = false ∧ Plain l := by
  have hne : l.flatMap html ≠ [] := by
    match l, h.nonempty with
    | t :: l', _ => simp [html_ne_nil t]
  have hfirst : ∀ c, (l.flatMap html).head? = some c → isWs c = false := by
    intro c hc
    match l, h.nonempty, h.first with
    | t :: l', _, hf =>
      cases t with
      | ch x => simp [html] at hc; subst hc; exact not_white (hf x rfl)
      | _ => simp [html] at hc; subst hc; rfl
  have hlast : ∀ c, (l.flatMap html).getLast? = some c → isWs c = false := by
    intro c hc
    obtain ⟨t, l', e⟩ : ∃ t l', l = l' ++ [t] := ⟨_, _, (List.dropLast_concat_getLast h.nonempty).symm⟩
    subst e
    have hl := h.last
    rw [List.flatMap_append, List.flatMap_singleton, List.getLast?_append] at hc
    cases t with
    | ch x => simp [html] at hc; subst hc; exact not_white (hl x (by simp))
    | _ => simp [html] at hc; subst hc; rfl
  refine ⟨hne, ?_, ?_, Color.trim_of_edges hfirst hlast, ?_, fun c hc => ⟨(h.chars c hc).2.1, (h.chars c hc).2.2.2⟩⟩
  · intro hm
    obtain ⟨t, ht, hc⟩ := List.mem_flatMap.1 hm
    cases t with
    | ch c => simp [html] at hc; exact (h.chars c ht).1 hc.symm
    | _ => simp [html] at hc
  · intro e
    have := hlast _ e
    exact absurd this (by decide)
  · rw [containsStr_false]
    exact lacks_html (by decide) (by decide) l h.noArrow

/-! ## The body of a block -/

/-- The pieces of the whole text. -/
def allToks : List (List Tok) → List Tok
  | [] => []
  | [l] => l
  | l :: m :: ls => l ++ .ch '\\' :: .ch 'N' :: allToks (m :: ls)

theorem text_eq (L : List (List Tok)) : text L = (allToks L).flatMap Tok.ass := by
  match L with
  | [] => rfl
  | [l] => rfl
  | l :: m :: ls =>
    rw [text, allToks, text_eq (m :: ls)]
    simp [line, Tok.ass]

theorem allToks_plain {L : List (List Tok)} (h : ∀ l ∈ L, Plain l) : Plain (allToks L) := by
  match L with
  | [] => intro c hc; simp [allToks] at hc
  | [l] => exact h l (by simp)
  | l :: m :: ls =>
    have ih := allToks_plain (L := m :: ls) (fun l hl => h l (by simp at hl ⊢; exact .inr hl))
    intro c hc
    rw [allToks] at hc
    simp at hc
    rcases hc with hc | rfl | rfl | hc
    · exact h l (by simp) c hc
    · decide
    · decide
    · exact ih c hc

/-- The lines of the body, each followed by a line feed. -/
def body (L : List (List Tok)) : Str := joinStr ['\n'] (L.map (·.flatMap html))

theorem breakLines_cons {x rest : Str} (h : Lacks "\\N".toList x) :
    breakLines (x ++ '\\' :: 'N' :: rest) = x ++ '\n' :: breakLines rest := by
  unfold breakLines
  have : splitOnceStr "\\N".toList (x ++ "\\N".toList ++ rest) = some (x, rest) := by
    induction x with
    | nil => simp [splitOnceStr, stripPrefix]
    | cons c x ih =>
      have h' : ∀ a b, x ≠ a ++ "\\N".toList ++ b := fun a b e => h (c :: a) b (by rw [e]; simp)
      have h0 : stripPrefix "\\N".toList (c :: (x ++ "\\N".toList ++ rest)) = none := by
        rw [stripPrefix_eq_none]
        intro t e
        cases x with
        | nil => simp at e
        | cons d x =>
          simp at e
          exact h [] x (by simp [e.1, e.2.1])
      rw [List.cons_append, List.cons_append]
      unfold splitOnceStr
      rw [h0, ih h']
  have := replaceAll_split (rep := ['\n']) (by decide) this
  simpa using this

theorem breakLines_html {L : List (List Tok)} (h : ∀ l ∈ L, Carried l) :
    breakLines ((allToks L).flatMap html) = body L := by
  match L with
  | [] => rfl
  | [l] =>
    unfold breakLines
    rw [replaceAll_lacks]
    · rfl
    · exact lacks_html (by decide) (by decide) l (h l (by simp)).noBreak
  | l :: m :: ls =>
    have ih := breakLines_html (L := m :: ls) (fun l hl => h l (by simp at hl ⊢; exact .inr hl))
    rw [allToks]
    simp only [List.flatMap_append, List.flatMap_cons]
    have e : l.flatMap html ++ (html (.ch '\\') ++ (html (.ch 'N') ++ (allToks (m :: ls)).flatMap html)) =
        l.flatMap html ++ '\\' :: 'N' :: (allToks (m :: ls)).flatMap html := rfl
    rw [e, breakLines_cons (lacks_html (by decide) (by decide) l (h l (by simp)).noBreak), ih]
    simp [body, joinStr]

theorem bodyText_format {L : List (List Tok)} (h : ∀ l ∈ L, Carried l) : bodyText false (text L) = body L := by
  unfold bodyText
  rw [if_neg (by decide), text_eq, toHtml _ (allToks_plain (fun l hl => (carried_html (h l hl)).2.2.2.2.2)), breakLines_html h]




theorem ass_eq_html {l : List Tok} (h : ∀ t ∈ l, ∃ c, t = .ch c) : l.flatMap Tok.ass = l.flatMap html := by
  induction l with
  | nil => rfl
  | cons t l ih =>
    obtain ⟨c, rfl⟩ := h t (by simp)
    rw [List.flatMap_cons, List.flatMap_cons, ih (fun t ht => h t (by simp [ht]))]; rfl

theorem allToks_noTags {L : List (List Tok)} (h : Unformatted L) : ∀ t ∈ allToks L, ∃ c, t = .ch c := by
  match L with
  | [] => simp [allToks]
  | [l] => exact h l (by simp)
  | l :: m :: ls =>
    have ih := allToks_noTags (L := m :: ls) (fun l hl => h l (by simp at hl ⊢; exact .inr hl))
    intro t ht
    rw [allToks] at ht
    simp at ht
    rcases ht with ht | rfl | rfl | ht
    · exact h l (by simp) t ht
    · exact ⟨_, rfl⟩
    · exact ⟨_, rfl⟩
    · exact ih t ht

theorem bodyText_strip {L : List (List Tok)} {t : Str} (h : ∀ l ∈ L, Carried l) (hn : Unformatted L)
    (hs : Stripped t (text L)) : bodyText true t = body L := by
  unfold bodyText
  rw [if_pos rfl, (Props.C30_strip_exact t _).2 hs, text_eq, ass_eq_html (allToks_noTags hn), breakLines_html h]

/-- The body as it stands in the file: its lines, then a blank line (two for an empty body). -/
theorem lines_body {L : List (List Tok)} (h : ∀ l ∈ L, Carried l) (rest : Str) :
    lines (body L ++ '\n' :: '\n' :: rest) = L.map (·.flatMap html) ++ (if L = [] then [[], []] else [[]]) ++ lines rest := by
  match L with
  | [] =>
    have e : body [] ++ '\n' :: '\n' :: rest = [] ++ '\n' :: ([] ++ '\n' :: rest) := rfl
    rw [e, lines_append [] (by simp), lines_append [] (by simp)]; rfl
  | [l] =>
    have hc := carried_html (h l (by simp))
    have e : body [l] ++ '\n' :: '\n' :: rest = l.flatMap html ++ '\n' :: ([] ++ '\n' :: rest) := rfl
    rw [e, lines_append _ hc.2.1, lines_append [] (by simp), stripCr_of hc.2.2.1]; rfl
  | l :: m :: ls =>
    have hc := carried_html (h l (by simp))
    have ih := lines_body (L := m :: ls) (fun l hl => h l (by simp at hl ⊢; exact .inr hl)) rest
    have e : body (l :: m :: ls) ++ '\n' :: '\n' :: rest = l.flatMap html ++ '\n' :: (body (m :: ls) ++ '\n' :: '\n' :: rest) := by
      simp [body, joinStr]
    rw [e, lines_append _ hc.2.1, stripCr_of hc.2.2.1, ih]
    simp

theorem not_digits_of_mem {s : Str} {c : Char} (h : c ∈ s) (hc : ('0' ≤ c && c ≤ '9') = false) :
    s.all (fun c => '0' ≤ c && c ≤ '9') = false := by
  rw [List.all_eq_false]
  exact ⟨c, h, by simp [hc]⟩

/-! ## Importing -/

/-- Joining what has been read with further lines. -/
def joined (t : Str) (L : List (List Tok)) : Str := L.foldl (fun t l => (if t ≠ [] then t ++ "\\N".toList else t) ++ line l) t

theorem line_ne_nil {l : List Tok} (h : l ≠ []) : line l ≠ [] := by
  match l, h with
  | t :: l, _ => cases t <;> simp [line, Tok.ass]

theorem joined_ne {t : Str} (ht : t ≠ []) : ∀ (l : List Tok) (ls : List (List Tok)), joined t (l :: ls) = t ++ "\\N".toList ++ text (l :: ls)
  | l, [] => by simp [joined, ht, text]
  | l, m :: ls => by
    have := joined_ne (t := t ++ "\\N".toList ++ line l) (by simp) m ls
    rw [text]
    simp only [joined, List.foldl_cons] at this ⊢
    rw [if_pos ht]
    rw [this]
    simp

theorem joined_nil {L : List (List Tok)} (h : ∀ l ∈ L, Carried l) : joined [] L = text L := by
  match L with
  | [] => rfl
  | [l] => simp [joined, text]
  | l :: m :: ls =>
    have := joined_ne (line_ne_nil (h l (by simp)).nonempty) m ls
    rw [text, ← this]
    rfl

/-- Text lines are added to the current entry (SRT). -/
theorem srtLines_text (acc : List Entry) (a b t : Str) (L : List (List Tok)) (h : ∀ l ∈ L, Carried l) (more : List Str) :
    srtLines ⟨acc, some ⟨a, b, t⟩, true⟩ (L.map (·.flatMap html) ++ more) =
      srtLines ⟨acc, some ⟨a, b, joined t L⟩, true⟩ more := by
  induction L generalizing t with
  | nil => rfl
  | cons l L ih =>
    obtain ⟨h1, h2, h3, h4, h5, h6⟩ := carried_html (h l (by simp))
    have step : srtLine ⟨acc, some ⟨a, b, t⟩, true⟩ (l.flatMap html) =
        some ⟨acc, some ⟨a, b, (if t ≠ [] then t ++ "\\N".toList else t) ++ line l⟩, true⟩ := by
      unfold srtLine
      simp only [h4, if_neg h1, h5, Bool.not_true, Bool.and_false, Bool.false_eq_true, if_false, convertSrt_html l h6]
      rfl
    rw [List.map_cons, List.cons_append, srtLines, step]
    simp only
    rw [ih _ (fun l hl => h l (by simp [hl]))]
    rfl

theorem srtLines_blank (acc : List Entry) (e : Entry) (p : Bool) (more : List Str) :
    srtLines ⟨acc, some e, true⟩ ((if p then [[], []] else [[]]) ++ more) = srtLines ⟨acc ++ [e], none, false⟩ more := by
  cases p <;> rfl

/-- The arrow line. -/
theorem split_arrow {x y : Str} (hx : '-' ∉ x) (hy : '-' ∉ y) :
    splitStr "-->".toList (x ++ " --> ".toList ++ y) = [x ++ [' '], ' ' :: y] := by
  have e : x ++ " --> ".toList ++ y = (x ++ [' ']) ++ '-' :: "->".toList ++ (' ' :: y) := by simp
  have h1 : splitOnceStr "-->".toList (x ++ " --> ".toList ++ y) = some (x ++ [' '], ' ' :: y) := by
    rw [e]
    exact splitOnceStr_of_not_mem (p := '-') (ps := "->".toList) _ (by simp [hx])
  rw [splitStr_cons (by decide) h1, splitStr_of_lacks (pat := "-->".toList) (lacks_of_not_mem (p := '-') (ps := "->".toList) (by simp [hy]))]

/-- A time stamp as a text: digits at both ends, no dash, no line feed. -/
structure StampText (x : Str) : Prop where
  ne : x ≠ []
  first : ∀ c, x.head? = some c → isWs c = false
  last : ∀ c, x.getLast? = some c → isWs c = false
  dash : '-' ∉ x
  lf : '\n' ∉ x
  up : ∀ c, x.head? = some c → c.isDigit = true

theorem stampText {sep : Char} (hsep : sep = ',' ∨ sep = '.') {h m s ms : Nat} (hm : m < 100) (hs : s < 100) (hms : ms < 1000) :
    StampText (stamp sep h m s ms) := by
  rw [stamp_eq hm hs hms]
  have hm1 : ∀ c, c.isDigit = false → c ≠ ':' → c ≠ ',' → c ≠ '.' →
      c ∉ showPad 2 h ++ ':' :: showPad 2 m ++ ':' :: showPad 2 s ++ sep :: showPad 3 ms := by
    intro c hc h1 h2 h3
    have : c ≠ sep := by rcases hsep with rfl | rfl <;> assumption
    simp [showPad_no 2 h c hc, showPad_no 2 m c hc, showPad_no 2 s c hc, showPad_no 3 ms c hc, h1, this]
  have hup : ∀ c, (showPad 2 h ++ ':' :: showPad 2 m ++ ':' :: showPad 2 s ++ sep :: showPad 3 ms).head? = some c → c.isDigit = true := by
    intro c hc
    cases e : showPad 2 h with
    | nil => exact absurd e (showPad_ne_nil _ _)
    | cons d r =>
      rw [e] at hc; simp at hc; subst hc
      exact showPad_digits 2 h d (by rw [e]; simp)
  refine ⟨by simp, fun c hc => isWs_of_digit (hup c hc), ?_, hm1 _ (by decide) (by decide) (by decide) (by decide),
    hm1 _ (by decide) (by decide) (by decide) (by decide), hup⟩
  intro c hc
  have hl : (showPad 3 ms).getLast? = some ((showPad 3 ms).getLast (showPad_ne_nil 3 ms)) := List.getLast?_eq_some_getLast _
  rw [List.getLast?_append, List.getLast?_cons, hl] at hc
  simp at hc
  rw [← hc]
  exact isWs_of_digit (showPad_digits _ _ _ (List.getLast_mem _))

theorem StampText.line {x y : Str} (hx : StampText x) (hy : StampText y) :
    trim (x ++ " --> ".toList ++ y) = x ++ " --> ".toList ++ y ∧ x ++ " --> ".toList ++ y ≠ [] ∧
    '\n' ∉ x ++ " --> ".toList ++ y ∧ stripCr (x ++ " --> ".toList ++ y) = x ++ " --> ".toList ++ y ∧
    (x ++ " --> ".toList ++ y).all (fun c => '0' ≤ c && c ≤ '9') = false ∧
    containsStr "-->".toList (x ++ " --> ".toList ++ y) = true ∧
    trim (x ++ [' ']) = x ∧ trim (' ' :: y) = y := by
  have hl : (x ++ " --> ".toList ++ y).getLast? = y.getLast? := by
    have := List.getLast?_eq_some_getLast hy.ne
    rw [List.getLast?_append, this]; rfl
  refine ⟨Color.trim_of_edges ?_ ?_, by simp, ?_, ?_, ?_, ?_, ?_, ?_⟩
  · intro c hc
    cases x with
    | nil => exact absurd rfl hx.ne
    | cons d x => exact hx.first c (by simpa using hc)
  · intro c hc
    exact hy.last c (by rw [← hl]; exact hc)
  · simp [hx.lf, hy.lf]
  · apply stripCr_of
    rw [hl]
    intro e
    exact absurd (hy.last _ e) (by decide)
  · exact not_digits_of_mem (c := ' ') (by simp) (by decide)
  · rw [containsStr_iff]
    exact ⟨x ++ [' '], ' ' :: y, by simp⟩
  · have := Color.trim_pad (w1 := []) (w2 := [' ']) (s := x) (by simp) (by simp; decide) hx.ne hx.first hx.last
    simpa using this
  · have := Color.trim_pad (w1 := [' ']) (w2 := []) (s := y) (by simp; decide) (by simp) hy.ne hy.first hy.last
    simpa using this

theorem showNat_line (i : Nat) : trim (showNat i) = showNat i ∧ stripCr (showNat i) = showNat i ∧
    (showNat i).all (fun c => '0' ≤ c && c ≤ '9') = true := by
  have hlast : ∀ c, (showNat i).getLast? = some c → isWs c = false := fun c hc =>
    isWs_of_digit (showNat_digits i c (List.mem_of_getLast? hc))
  refine ⟨Color.trim_of_edges (fun c hc => isWs_of_digit (showNat_digits i c (List.mem_of_head? hc))) hlast,
    stripCr_of (fun e => absurd (hlast _ e) (by decide)), ?_⟩
  have := showNat_digits i
  exact Time.allDigits_iff.2 this

/-- One exported block drives the importer from a fresh state to a fresh state with one more entry. -/
theorem srtLines_block (acc : List Entry) (i : Nat) {x y u v : Str} (hx : StampText x) (hy : StampText y)
    (pu : parseSrtTime x = some u) (pv : parseSrtTime y = some v) {L : List (List Tok)} (h : ∀ l ∈ L, Carried l) (rest : Str) :
    srtLines ⟨acc, none, false⟩ (lines (showNat i ++ '\n' :: x ++ " --> ".toList ++ y ++ '\n' :: body L ++ "\n\n".toList ++ rest)) =
      srtLines ⟨acc ++ [⟨u, v, text L⟩], none, false⟩ (lines rest) := by
  obtain ⟨t1, t2, t3, t4, t5, t6, t7, t8⟩ := hx.line hy
  obtain ⟨n1, n2, n3⟩ := showNat_line i
  have e : showNat i ++ '\n' :: x ++ " --> ".toList ++ y ++ '\n' :: body L ++ "\n\n".toList ++ rest =
      showNat i ++ '\n' :: ((x ++ " --> ".toList ++ y) ++ '\n' :: (body L ++ '\n' :: '\n' :: rest)) := by simp
  rw [e, lines_append _ (showNat_no _ _ (by decide)), lines_append _ t3, lines_body h, t4, n2]
  have s1 : srtLine ⟨acc, none, false⟩ (showNat i) = some ⟨acc, some ⟨[], [], []⟩, false⟩ := by
    unfold srtLine
    simp only [n1, if_neg (showNat_ne_nil i), n3, Bool.not_false, Bool.and_true, if_true]
  have s2 : srtLine ⟨acc, some ⟨[], [], []⟩, false⟩ (x ++ " --> ".toList ++ y) = some ⟨acc, some ⟨u, v, []⟩, true⟩ := by
    unfold srtLine
    simp only [t1, if_neg t2, t5, Bool.false_and, Bool.false_eq_true, if_false, t6, if_true]
    unfold St.addTimes
    simp only [split_arrow hx.dash hy.dash, t7, t8, pu, pv]
  rw [srtLines, s1]
  simp only
  rw [srtLines, s2]
  simp only
  rw [List.append_assoc, srtLines_text acc u v [] L h, joined_nil h]
  have hb : (if L = [] then [[], []] else [[]] : List Str) = (if decide (L = []) then [[], []] else [[]]) := by
    simp
  rw [hb, srtLines_blank]

/-! ## WebVTT -/

theorem vttLines_text (acc : List Entry) (a b t : Str) (L : List (List Tok)) (h : ∀ l ∈ L, Carried l)
    (hn : ∀ l ∈ L, NotHeader l) (more : List Str) :
    vttLines ⟨acc, some ⟨a, b, t⟩, true⟩ (L.map (·.flatMap html) ++ more) =
      vttLines ⟨acc, some ⟨a, b, joined t L⟩, true⟩ more := by
  induction L generalizing t with
  | nil => rfl
  | cons l L ih =>
    obtain ⟨h1, h2, h3, h4, h5, h6⟩ := carried_html (h l (by simp))
    obtain ⟨n1, n2⟩ := hn l (by simp)
    have w1 : startsWith "WEBVTT".toList (l.flatMap html) = false := by
      rw [startsWith_false]
      intro t e
      obtain ⟨t', e'⟩ := prefix_html_ass (by decide) l t e
      exact n1 t' e'
    have w2 : startsWith "NOTE".toList (l.flatMap html) = false := by
      rw [startsWith_false]
      intro t e
      obtain ⟨t', e'⟩ := prefix_html_ass (by decide) l t e
      exact n2 t' e'
    have step : vttLine ⟨acc, some ⟨a, b, t⟩, true⟩ (l.flatMap html) =
        some ⟨acc, some ⟨a, b, (if t ≠ [] then t ++ "\\N".toList else t) ++ line l⟩, true⟩ := by
      unfold vttLine
      simp only [h4, w1, w2, h1, h5, Bool.false_or, decide_false, Bool.false_eq_true, if_false, convertVtt_html l h6]
      rfl
    rw [List.map_cons, List.cons_append, vttLines, step]
    simp only
    rw [ih _ (fun l hl => h l (by simp [hl])) (fun l hl => hn l (by simp [hl]))]
    rfl

theorem vttLines_blank (acc : List Entry) (e : Entry) (p : Bool) (more : List Str) :
    vttLines ⟨acc, some e, true⟩ ((if p then [[], []] else [[]]) ++ more) = vttLines ⟨acc ++ [e], none, false⟩ more := by
  cases p <;> rfl

theorem vttLines_block (acc : List Entry) {x y u v : Str} (hx : StampText x) (hy : StampText y)
    (pu : parseWebvttTime x = some u) (pv : parseWebvttTime y = some v) {L : List (List Tok)} (h : ∀ l ∈ L, Carried l)
    (hn : ∀ l ∈ L, NotHeader l) (rest : Str) :
    vttLines ⟨acc, none, false⟩ (lines (x ++ " --> ".toList ++ y ++ '\n' :: body L ++ "\n\n".toList ++ rest)) =
      vttLines ⟨acc ++ [⟨u, v, text L⟩], none, false⟩ (lines rest) := by
  obtain ⟨t1, t2, t3, t4, t5, t6, t7, t8⟩ := hx.line hy
  have e : x ++ " --> ".toList ++ y ++ '\n' :: body L ++ "\n\n".toList ++ rest =
      (x ++ " --> ".toList ++ y) ++ '\n' :: (body L ++ '\n' :: '\n' :: rest) := by simp
  have noW : ∀ (c : Char) (w : Str), c.isDigit = false → startsWith (c :: w) (x ++ " --> ".toList ++ y) = false := by
    intro c w hc
    rw [startsWith_false]
    intro t e
    cases hxx : x with
    | nil => exact absurd hxx hx.ne
    | cons d r =>
      rw [hxx] at e
      simp at e
      have := hx.up d (by rw [hxx]; rfl)
      rw [e.1, hc] at this
      exact absurd this (by decide)
  rw [e, lines_append _ t3, lines_body h, t4]
  have s2 : vttLine ⟨acc, none, false⟩ (x ++ " --> ".toList ++ y) = some ⟨acc, some ⟨u, v, []⟩, true⟩ := by
    unfold vttLine
    have w1 : startsWith "WEBVTT".toList (x ++ " --> ".toList ++ y) = false := noW 'W' "EBVTT".toList (by decide)
    have w2 : startsWith "NOTE".toList (x ++ " --> ".toList ++ y) = false := noW 'N' "OTE".toList (by decide)
    simp only [t1, w1, w2, t2, Bool.false_or, decide_false, Bool.false_eq_true, if_false, t6, if_true]
    unfold St.addVttTimes
    simp only [split_arrow hx.dash hy.dash, t7, t8, pu, pv]
  rw [vttLines, s2]
  simp only
  rw [List.append_assoc, vttLines_text acc u v [] L h hn, joined_nil h]
  have hb : (if L = [] then [[], []] else [[]] : List Str) = (if decide (L = []) then [[], []] else [[]]) := by
    simp
  rw [hb, vttLines_blank]

end Verif.SrtDoc
